{"claims": [
 {"property": "C01", "status": "proved", "theorems": ["Pdffit.C01.C01_param_store_refines_table", "Pdffit.C01.C01_getpar_returns_latest", "Pdffit.C01.C01_failed_call_keeps_state", "Pdffit.C01.C01_index_identity", "Pdffit.C01.C01_getpar_setpar"], "note": ""},
 {"property": "C02", "status": "proved", "theorems": ["Pdffit.C02.C02_fixed_parameters_unchanged", "Pdffit.C02.C02_fixed_parameters_unchanged_by_refine", "Pdffit.C02.C02_no_undefined_behaviour"], "note": ""},
 {"property": "C03", "status": "proved", "theorems": ["Pdffit.C03.C03_refine_terminates", "Pdffit.C03.C03_normal_finish_takes_five_steps"], "note": ""},
 {"property": "C04", "status": "partial", "theorems": ["Pdffit.C04.C04_rw_never_worse_partial", "Pdffit.C04.C04_with_constraints_partial", "Pdffit.C04.C04_after_exception_rw_is_stale"], "note": "after an exception inside refine the stored rw does not describe the current parameters (witness proved); proved for calls that return normally, for an abstract model and for the engine's constraint machinery"},
 {"property": "C05", "status": "partial", "theorems": ["Pdffit.C05.C05_variables_agree_partial", "Pdffit.C05.C05_curve_agrees", "Pdffit.C05.C05_coordinate_not_constraint_value", "Pdffit.C05.C05_text_value"], "note": "false for atom coordinates, which are wrapped into the cell after the constraint is applied (witness proved); proved for all other variables, for coordinates inside the cell, and modulo the supercell otherwise; curve proved"},
 {"property": "C06", "status": "partial", "theorems": ["Pdffit.C06.C06_crw_shape_after_refine", "Pdffit.C06.C06_crw_shape_during_refine", "Pdffit.C06.C06_last_crw_is_rw_partial", "Pdffit.C06.C06_last_crw_can_differ_from_rw"], "note": "crw may reflect a rejected trial, so its last entry can differ from rw (witness proved); shape proved in full"},
 {"property": "C07", "status": "partial", "theorems": ["Pdffit.C07.C07_replaces_partial", "Pdffit.C07.C07_fixed_parameter_duplicates", "Pdffit.C07.C07_wrong_formula_stays", "Pdffit.C07.C07_text_partial"], "note": "false: constraints marked not refinable are not found (two witnesses proved); proved for histories in which each evaluation finds all constraints valid and dependent on a free parameter"},
 {"property": "C08", "status": "partial", "theorems": ["Pdffit.C08.C08_derivatives_partial", "Pdffit.C08.C08_replaced_constraint_stale", "Pdffit.C08.C08_fixed_parameter_nonzero", "Pdffit.C08.C08_text_partial"], "note": "false after replacing a constraint and for fixed parameters (witnesses proved); proved for free parameters in histories without replacement"},
 {"property": "C09", "status": "proved", "theorems": ["Pdffit.C09.value", "Pdffit.C09.value_builtin"], "note": "Character-level model of parser.cc; for every text of the formula grammar evaluation returns the real value of the formula, with the built-in table as the mathematical functions."},
 {"property": "C10", "status": "proved", "theorems": ["Pdffit.C10.gradient"], "note": "Derivative vector of every grammar formula inside the open domains is the gradient w.r.t. the free parameters, zero for fixed ones; used lists the formula's parameters once each."},
 {"property": "C11", "status": "partial", "theorems": ["Pdffit.C11.terminates", "Pdffit.C11.outcome_partial", "Pdffit.C11.error_kind", "Pdffit.C11.reads_outside", "Pdffit.C11.accepts_malformed"], "note": "Every text ends in a value, a parse error or a constraint error when no closing bracket is directly followed by a digit. Otherwise the code can read outside its stack or return a wrong value silently; both shown by witnesses."},
 {"property": "C12", "status": "proved", "theorems": ["Pdffit.C12.table", "Pdffit.C12.table_complete"], "note": "Every entry of the builtin table is the mathematical function and its derivative on the open domain; no further entries."},
 {"property": "C13", "status": "proved", "theorems": ["Pdffit.C13.C13_gaussj_inverts_or_reports_singular", "Pdffit.C13.C13_gaussj_raises_iff_singular"], "note": "over an ordered field"},
 {"property": "C14", "status": "proved", "theorems": ["Pdffit.C14.C14_covariance_is_inverse_curvature"], "note": ""},
 {"property": "C15", "status": "proved", "theorems": ["Pdffit.C15.C15_mrqcof_gives_normal_equations", "Pdffit.C15.C15_curvature_symmetric", "Pdffit.C15.C15_curvature_nonneg", "Pdffit.C15.C15_refinement_uses_current_normal_equations", "Pdffit.C15.C15_trial_step_solves_damped_equations"], "note": ""},
 {"property": "C16", "status": "partial", "theorems": ["Pdffit.C16.C16_whole_refinements_independent_partial", "Pdffit.C16.C16_interleaved_steps_interfere", "Pdffit.C16.C16_exception_spoils_other_object"], "note": "false in general (statics shared by all objects; witnesses proved); proved for programs of whole refine() calls that all finish"},
 {"property": "C17", "status": "partial", "theorems": ["Pdffit.C17.C17_restart_after_first_step_failure_partial", "Pdffit.C17.C17_restart_after_finish", "Pdffit.C17.C17_continues_broken_fit", "Pdffit.C17.C17_not_fresh_after_later_failure"], "note": "false for exceptions after the first step (witness proved); proved for exceptions in the first step and after a finished refinement"},
 {"property": "C18", "status": "partial", "theorems": ["Pdffit.C18.complete", "Pdffit.C18.shell_partial", "Pdffit.C18.no_rmin", "Pdffit.C18.good_of", "Pdffit.C18.visits_origin"], "note": "Complete, duplicate free and bounded by Rmax for all lattices; terminates. Exactly the shell when no lattice point is at the distance Rmin; otherwise points inside Rmin are visited (witness: cubic, Rmin=1, origin)."},
 {"property": "C19", "status": "partial", "theorems": ["Pdffit.C19.exact_partial", "Pdffit.C19.exact_of_close", "Pdffit.C19.unknown", "Pdffit.C19.missed"], "note": "Exact when atom coordinates differ by at most one cell edge (or by less than circum_diameter); supercell violation shown."},
 {"property": "C20", "status": "partial", "theorems": ["Pdffit.C20.valid", "Pdffit.C20.image", "Pdffit.C20.ortho_partial", "Pdffit.C20.not_shortest_ortho", "Pdffit.C20.not_shortest_oblique"], "note": "Always an image distance; in orthogonal cells an exact criterion for being the shortest; violations for orthogonal and oblique cells shown."},
 {"property": "C21", "status": "partial", "theorems": ["Pdffit.C21.symmetric_partial", "Pdffit.C21.asymmetric"], "note": "Symmetric in orthogonal cells with the uncertainty; violation in an oblique cell shown."},
 {"property": "C22", "status": "partial", "theorems": ["Pdffit.C22.valid", "Pdffit.C22.symmetric", "Pdffit.C22.range_partial", "Pdffit.C22.not_a_number"], "note": "Symmetry and index checks for all inputs; range when neither end atom is an image of the middle one; otherwise the result is not a number (shown)."},
 {"property": "C23", "status": "proved", "theorems": ["Pdffit.C23.partials", "Pdffit.C23.group_eq"], "note": "Selections made by selectNone/selectAtomType per type of the group, from any previous selection; with and without Qmax; one selected phase."},
 {"property": "C24", "status": "partial", "theorems": ["Pdffit.C24.full_partial", "Pdffit.C24.all_partial", "Pdffit.C24.order_partial", "Pdffit.C24.near_of", "Pdffit.C24.missed"], "note": "Full double sum and independence of atom order for structures whose position differences are shorter than circum_diameter() (in particular coordinates differing by at most one). Violated for larger supercells: a translation in the sphere with a positive contribution is not visited (missed)."},
 {"property": "C25", "status": "partial", "theorems": ["Pdffit.C25.by_type", "Pdffit.C25.by_index", "Pdffit.C25.all", "Pdffit.C25.none", "Pdffit.C25.raises_unchanged", "Pdffit.C25.invalid_partial", "Pdffit.C25.others", "Pdffit.C25.fresh", "Pdffit.C25.step_spec", "Pdffit.C25.sequence", "Pdffit.C25.deselected"], "note": "For every reachable state and every sequence of calls the selected sets equal the set-algebra specification (sequence); invalid arguments raise and change nothing. Violated for a phase deselected with pdesel: the call dereferences a null pointer (deselected). invalid_partial therefore assumes the phase is selected."},
 {"property": "C26", "status": "proved", "theorems": ["Pdffit.C26.slots", "Pdffit.C26.new_phase", "Pdffit.C26.new_data", "Pdffit.C26.psel_one", "Pdffit.C26.pdesel_one", "Pdffit.C26.sel_all", "Pdffit.C26.sel_bad", "Pdffit.C26.current", "Pdffit.C26.current_exists"], "note": "Proved for all call sequences on the engine state model."},
 {"property": "C27", "status": "partial", "theorems": ["Pdffit.C27.empty", "Pdffit.C27.like_new_partial", "Pdffit.C27.new_engine", "Pdffit.C27.run_same", "Pdffit.C27.stale"], "note": "The state after reset is a new engine's (and behaves identically for every later sequence) apart from the section pointers of the variables, which dangle: stale proves that getvar after reset is undefined behaviour."},
 {"property": "C28", "status": "partial", "theorems": ["Pdffit.C28.no_trace_partial", "Pdffit.C28.only_bad_input", "Pdffit.C28.lists_trace", "Pdffit.C28.write_trace"], "note": "A load that fails in the engine leaves every component of the engine state unchanged, and the engine fails only for bad input. Violated when the exception comes from a Python object: a non-number in read_data_lists, or a redirected output whose write raises."},
 {"property": "C29", "status": "partial", "theorems": ["Pdffit.C29.one", "Pdffit.C29.all_partial", "Pdffit.C29.reachable", "Pdffit.C29.all_not_atomic"], "note": "Validated per data set and unchanged on error for one data set; the all-sets form changes the first sets before raising on a later one (all_not_atomic)."},
 {"property": "C30", "status": "partial", "theorems": ["Pdffit.C30.determine_ok", "Pdffit.C30.residuals_ok", "Pdffit.C30.alloc_inv", "Pdffit.C30.range_inv", "Pdffit.C30.derivatives_ok_partial", "Pdffit.C30.derivatives_column", "Pdffit.C30.derivatives_unattached", "Pdffit.C30.alloc_zero_step", "Pdffit.C30.stale_layout"], "note": "All accesses to ppp, calc, pdftot, the filter buffer, obs and wic are inside the arrays for every data set with positive step that alloc/range produce, every structure, selection, Qmax, diameter and step cut. After fit_setup all accesses to refvar, fit_a, fit_b are inside, and every column of fit_a belongs to its own variable. Violations: a step of zero; a phase loaded after fit_setup when the setup is not repeated."},
 {"property": "C31", "status": "partial", "theorems": ["Pdffit.C31.equal_partial", "Pdffit.C31.after_calc_partial", "Pdffit.C31.before_calc", "Pdffit.C31.calc_values", "Pdffit.C31.after_alloc", "Pdffit.C31.single_point", "Pdffit.C31.old_range"], "note": "All histories in which the stored range has more than one point (equal_partial), with the grid points of the fit range after a calculation (after_calc_partial); before the first calculation getpdf_fit gives zeros and getpdf_diff the observed values (before_calc), after one the calculated values (calc_values). Violated after alloc/read_data_arrays before a calculation and for a fit range of one grid point."},
 {"property": "C32", "status": "partial", "theorems": ["Pdffit.C32.three", "Pdffit.C32.four", "Pdffit.C32.otherwise", "Pdffit.C32.arrays_none_partial", "Pdffit.C32.arrays_wrong", "Pdffit.C32.arrays_zero"], "note": "read_data and read_data_string: proved for every text with a # or a History header. read_data_arrays uses 1/sqrt(dGr) and accepts nonpositive uncertainties (violations)."},
 {"property": "C33", "status": "partial", "theorems": ["Pdffit.C33.terminates_partial", "Pdffit.C33.terminates_newline_partial", "Pdffit.C33.hangs_iff", "Pdffit.C33.hangs_history_iff", "Pdffit.C33.hangs", "Pdffit.C33.hangs_history"], "note": "Terminates for every text whose last line does not begin with #. Hangs are characterised exactly, for texts without History (hangs_iff) and with History (hangs_history_iff)."},
 {"property": "C34", "status": "partial", "theorems": ["Pdffit.C34.deviation_partial", "Pdffit.C34.increasing_partial", "Pdffit.C34.stream_ok", "Pdffit.C34.inv", "Pdffit.C34.arrays_ok", "Pdffit.C34.arrays_lengths", "Pdffit.C34.arrays_partial", "Pdffit.C34.unbounded", "Pdffit.C34.decreasing", "Pdffit.C34.constant", "Pdffit.C34.single"], "note": "The k-th of n values lies within min k (n-1-k) tolerances of the grid; arrays of equal lengths are stored as given (arrays_*). Violated otherwise: unbounded deviation, decreasing or constant r, single point."},
 {"property": "C35", "status": "partial", "theorems": ["Pdffit.C35.read_save", "Pdffit.C35.save_again", "Pdffit.C35.read_good", "Pdffit.C35.roundtrip_partial", "Pdffit.C35.error_bound", "Pdffit.C35.not_identical", "Pdffit.C35.not_claim"], "note": "Character-level model of save_struct and of the whole reader (header, atoms in both formats, label lookup). read_save and roundtrip_partial: for every structure (read_good: every structure that has been read qualifies) reading the saved text gives the structure with every number replaced by its printed value, within half a unit of the last digit (error_bound). save_again: the text saved again is identical unless a positive shape parameter is printed as zero; not_identical shows that the exception is real. Missing: that exception, and success of lattice() for the rounded cell. Numbers are exact decimals with a sign; binary rounding is not modelled."},
 {"property": "C36", "status": "partial", "theorems": ["Pdffit.C36.blank_ok_partial", "Pdffit.C36.blank_error", "Pdffit.C36.blank_format", "Pdffit.C36.not_claim"], "note": "False as stated (not_claim): a blank line repeats the previous command without arguments. The effect is determined for every command: insignificant after all but seven commands (blank_ok_partial), structureError after scale, sharp, shape, cell, dcell, ncell (blank_error), DISCUS format after format (blank_format)."},
 {"property": "C37", "status": "proved", "theorems": ["Pdffit.C37.get_after", "Pdffit.C37.atoms_follow", "Pdffit.C37.independent", "Pdffit.C37.common_std"], "note": "The table of a phase is modelled with its lazily copied entries; get_after equates every call after any sequence of calls (set, reset, get, new phase, setphase, other lookups, failed calls included) with a machine that stores the latest value per phase, element and radiation. Stated for every consistent table; C38.scat_after instantiates it with the table of the program. reset of the whole engine (which deletes all phases) is not one of the operations."},
 {"property": "C38", "status": "proved", "theorems": ["Pdffit.C38.lookup_case", "Pdffit.C38.own_symbol", "Pdffit.C38.own_name", "Pdffit.C38.hydrogen", "Pdffit.C38.unknown", "Pdffit.C38.cons", "Pdffit.C38.scat_after"], "note": "All 355 entries of the table are transcribed; the finite facts about it (no duplicates, symbols and names disjoint, standard case) are checked for all entries by kernel evaluation, everything about strings is proved for all strings."},
 {"property": "C39", "status": "proved", "theorems": ["Pdffit.C39.length", "Pdffit.C39.sum_one", "Pdffit.C39.excluded", "Pdffit.C39.in_unit", "Pdffit.C39.meaning", "Pdffit.C39.derivative", "Pdffit.C39.error"], "note": "Phase fractions by atoms, cells and mass: one per phase of the data set, sum 1, in [0,1], scale invariant exclusion, meaning in terms of the composition of the sample, and the reported error is the linearly propagated one (derivative proved in the analytic sense)."},
 {"property": "C40", "status": "proved", "theorems": ["Pdffit.C40.linear", "Pdffit.C40.exists_iff", "Pdffit.C40.excluded", "Pdffit.C40.dscale"], "note": "Stated with the curve the program itself calculates for one phase with unit scales; values on the whole calculated range, with and without Qmax."},
 {"property": "C41", "status": "proved", "theorems": ["Pdffit.C41.mean_one", "Pdffit.C41.phase_scale", "Pdffit.C41.scale"], "note": "Mean weight one; the outcome of determine (including NaN and undefined outcomes) is unchanged by multiplying all scattering factors of each phase by a nonzero number."},
 {"property": "C42", "status": "partial", "theorems": ["Pdffit.C42.total", "Pdffit.C42.linear", "Pdffit.C42.real", "Pdffit.C42.spectrum_partial", "Pdffit.C42.projection", "Pdffit.C42.above_nyquist", "Pdffit.C42.removes_below"], "note": "The filter is total on the buffer, linear, real, a projection on the padded buffer, and leaves the data unchanged when Qmax is above the Nyquist frequency. Violated in part: the frequency step uses padlen-1, so some components slightly below Qmax are removed too (removes_below)."},
 {"property": "C43", "status": "proved", "theorems": ["Pdffit.C43.bounds", "Pdffit.C43.at_zero", "Pdffit.C43.vanishes", "Pdffit.C43.decreasing", "Pdffit.C43.antitone", "Pdffit.C43.derivative", "Pdffit.C43.beyond", "Pdffit.C43.beyond_total"], "note": "r >= 0 and d > 0. The derivative is two-sided, also at d = r. The contribution of a phase is its column of calc; the termination filter, applied afterwards to the sum, spreads it again (beyond_total is for data without Qmax)."},
 {"property": "C44", "status": "partial", "theorems": ["Pdffit.C44.dscale", "Pdffit.C44.qdamp", "Pdffit.C44.pscale", "Pdffit.C44.spdiameter", "Pdffit.C44.occ", "Pdffit.C44.foreign", "Pdffit.C44.delta2", "Pdffit.C44.delta1", "Pdffit.C44.sratio", "Pdffit.C44.pos_partial", "Pdffit.C44.u_partial", "Pdffit.C44.a0_partial", "Pdffit.C44.qbroad_partial", "Pdffit.C44.delta2_partial", "Pdffit.C44.delta1_partial", "Pdffit.C44.sratio_partial", "Pdffit.C44.pos_steady_partial", "Pdffit.C44.u_steady_partial", "Pdffit.C44.a0_steady_partial", "Pdffit.C44.qbroad_steady_partial", "Pdffit.C44.win_partial", "Pdffit.C44.win_peak", "Pdffit.C44.u_violated", "Pdffit.C44.pos_violated", "Pdffit.C44.a0_violated", "Pdffit.C44.win_violated", "Pdffit.C44.qbroad_violated", "Pdffit.C44.dscale_violated", "Pdffit.C44.occ_violated", "Pdffit.C44.spdiameter_violated"], "note": "Columns for dscale, qdamp, pscale, spdiameter, occupancies and variables of other phases or data sets are proved without conditions on the geometry; delta1, delta2, sratio when no pair is at a threshold; positions, displacement parameters and edges for orthogonal cells; qbroad for one phase. The property fails in the remaining cases: violations are proved for angles, for positions, displacement parameters and edges in a cell with an angle of 120 degrees, for qbroad with two phases, and for vanishing dscale, occupancy and spdiameter. Angles, per peak: the column is the effect of the change of the distance (win_partial), and what it lacks is the effect of the change of the mean square displacement (win_peak)."},
 {"property": "C45", "status": "partial", "theorems": ["Pdffit.C45.direct_partial", "Pdffit.C45.metric_partial", "Pdffit.C45.rejected", "Pdffit.C45.zero_edge_accepted", "Pdffit.C45.tiny_indefinite"], "note": "Holds for cells with nonzero edges and without suppressed small metric elements. Violations shown: vanishing edge accepted (volume 0), cell with very short edges accepted with indefinite metric."},
 {"property": "C46", "status": "partial", "theorems": ["Pdffit.C46.order_perm", "Pdffit.C46.order_strict", "Pdffit.C46.report_partial", "Pdffit.C46.all_fixed", "Pdffit.C46.new_parameter"], "note": "The report lists free parameters in increasing id order with their own value. Violations proved: nothing is listed when everything is fixed; a parameter defined after the last refinement makes the report read past dp."},
 {"property": "C47", "status": "partial", "theorems": ["Pdffit.C47.count", "Pdffit.C47.complete", "Pdffit.C47.distinct", "Pdffit.C47.phase_offsets", "Pdffit.C47.set_offsets", "Pdffit.C47.own", "Pdffit.C47.attached_partial", "Pdffit.C47.second_lost"], "note": "The slot list has exactly getnpar entries, one per existing refinable variable, at the offsets the derivative code uses; a slot never refers to another variable's constraint. Violation proved: a second constraint of a variable whose first one has only fixed parameters is not attached."},
 {"property": "C48", "status": "proved", "theorems": ["Pdffit.C48.C48_zeros", "Pdffit.C48.C48_element_assignment", "Pdffit.C48.C48_resize", "Pdffit.C48.C48_transposed", "Pdffit.C48.C48_product", "Pdffit.C48.C48_product_mismatch", "Pdffit.C48.C48_rowVector", "Pdffit.C48.C48_colVector", "Pdffit.C48.C48_sd", "Pdffit.C48.C48_sd_not_square"], "note": ""},
 {"property": "C49", "status": "partial", "theorems": ["Pdffit.C49.get", "Pdffit.C49.set", "Pdffit.C49.set_get", "Pdffit.C49.bad_index_partial", "Pdffit.C49.bad_lat", "Pdffit.C49.unassigned", "Pdffit.C49.empty_phase"], "note": "Index resolution, set/get and errors proved; violated for a phase without atoms, where the exception class is unassignedError (empty_phase)."},
 {"property": "C50", "status": "partial", "theorems": ["Pdffit.C50.C50_translated_partial", "Pdffit.C50.C50_incomplete", "Pdffit.C50.C50_missing_errors", "Pdffit.C50.C50_models_readers", "Pdffit.C50.C50_models_scat", "Pdffit.C50.C50_models_calls", "Pdffit.C50.C50_models_geometry", "Pdffit.C50.C50_models_calculation", "Pdffit.C50.C50_models_refinement", "Pdffit.C50.C50_calc_undefined_parameter", "Pdffit.C50.C50_flat_cell", "Pdffit.C50.C50_bad_scattering_type", "Pdffit.C50.C50_constrain_unassigned"], "note": "False for calc, phase_fractions, save_res (exceptions escape), refine_step (SystemError) and constrain with a formula on an unassigned variable; proved exactly which calls translate every exception (control flow of the throwing functions, data abstracted to choices) and that the detailed models raise only exceptions of that table."},
 {"property": "C51", "status": "proved", "theorems": ["Pdffit.C51.same", "Pdffit.C51.sharp_new", "Pdffit.C51.sharp_old", "Pdffit.C51.sharp_error"], "note": "Extraction of numbers and symbols is a parameter."},
 {"property": "C52", "status": "partial", "theorems": ["Pdffit.C52.columns_partial", "Pdffit.C52.dif_columns_partial", "Pdffit.C52.not_calculated", "Pdffit.C52.no_set", "Pdffit.C52.no_file", "Pdffit.C52.saved", "Pdffit.C52.words_line", "Pdffit.C52.reread_rows", "Pdffit.C52.reread"], "note": "After any history with a calculation (or getpdf_fit) both files have the stated columns; rereading gives the printed values with unit weights, because five columns are written. Violated without a calculation: pdftot is empty and read out of bounds. The printer and the number scanner are parameters."},
 {"property": "C53", "status": "partial", "theorems": ["Pdffit.C53.C53_deviations_partial", "Pdffit.C53.C53_propagation", "Pdffit.C53.C53_fill_errors", "Pdffit.C53.C53_covariance", "Pdffit.C53.C53_stale_deviation", "Pdffit.C53.C53_replaced_constraint"], "note": "For any history without replaced constraints and a refinement that finishes: deviations of parameters and of constrained variables are those of linear error propagation with the true derivatives of the constraints, correlations lie in [-1, 1], and the error calculation has no undefined behaviour. Missing: deviations are never cleared (C53_stale_deviation) and replaced constraints leave foreign derivatives (C53_replaced_constraint); both are violations by the code."},
 {"property": "C54", "status": "proved", "theorems": ["Pdffit.C54.C54_well_posed_finishes", "Pdffit.C54.C54_dead_parameter_raises", "Pdffit.C54.C54_constrained_finishes"], "note": "For every model in which evaluations succeed and the points determine the free parameters, from every state of the object and of the statics that starts afresh; C54_dead_parameter_raises is the converse for a parameter without influence."},
 {"property": "C55", "status": "partial", "theorems": ["Pdffit.C55.volume", "Pdffit.C55.reciprocal_volume", "Pdffit.C55.reciprocal_edge", "Pdffit.C55.metric_diagonal", "Pdffit.C55.metric_offdiagonal_partial", "Pdffit.C55.reciprocal_angle_partial", "Pdffit.C55.trusted_of", "Pdffit.C55.scalar_product", "Pdffit.C55.length", "Pdffit.C55.bond_length", "Pdffit.C55.bond_angle_partial", "Pdffit.C55.number_density_partial", "Pdffit.C55.metric_obtuse", "Pdffit.C55.reciprocal_angle_negative", "Pdffit.C55.bond_angle_obtuse", "Pdffit.C55.number_density_supercell"], "note": "volume, reciprocal volume, reciprocal edges and the diagonal of the metric tensor are covered for all cells; off-diagonal elements, reciprocal angles and bond angles only when no cosine is negative; lengths for every phase whose metric is covered; negations with witnesses for obtuse angles and supercells"},
 {"property": "C56", "status": "partial", "theorems": ["Pdffit.C56.recip_recip", "Pdffit.C56.good_recip", "Pdffit.C56.spacing", "Pdffit.C56.Q_mul_d", "Pdffit.C56.complete", "Pdffit.C56.shell_partial", "Pdffit.C56.shellD_partial", "Pdffit.C56.visits_origin"], "note": "Reciprocal lattice, spacings, completeness and uniqueness proved; exactness of the shell only when no reflection lies exactly at the lower bound (visits_origin shows 000 is visited otherwise)."},
 {"property": "C57", "status": "proved", "theorems": ["Pdffit.C57.C57_reads_back", "Pdffit.C57.C57_injective"], "note": "Text decoded by an independent reader; symbols are those of the periodic table."},
 {"property": "C58", "status": "partial", "theorems": ["Pdffit.C58.enough_points", "Pdffit.C58.redchisq_partial", "Pdffit.C58.ds_sum_partial", "Pdffit.C58.ds_rw_partial", "Pdffit.C58.no_freedom", "Pdffit.C58.ds_differ"], "note": "Number of points and the total proved for every finished refinement with more points than free parameters; sums over data sets when the last trial was accepted. Violations: equal numbers (division by zero), rejected last trial."},
 {"property": "C59", "status": "partial", "theorems": ["Pdffit.C59.C59_iff", "Pdffit.C59.C59_reads_back", "Pdffit.C59.C59_injective", "Pdffit.C59.C59_unique", "Pdffit.C59.C59_call", "Pdffit.C59.C59_setpar", "Pdffit.C59.C59_lat_names", "Pdffit.C59.C59_rejects_partial", "Pdffit.C59.reset_text", "Pdffit.C59.setphase_text"], "note": "Texts of variables are proved in full (exact grammar). A text that writes no variable raises and changes nothing only if it does not write another function of the extension module (C59_rejects_partial); reset_text, setphase_text refute the rest."},
 {"property": "C60", "status": "partial", "theorems": ["Pdffit.C60.C60_same_partial", "Pdffit.C60.C60_origin", "Pdffit.C60.long_same", "Pdffit.C60.large_same", "Pdffit.C60.image_matters", "Pdffit.C60.bad_same", "Pdffit.C60.curve_same"], "note": "C60_same_partial: two descriptions of one crystal give the same curve and are numbers together, for no step cut and descriptions whose atoms are closer than circum_diameter; C60_origin: a common shift changes nothing, no hypothesis. The claim does not hold without the closeness: image_matters."},
 {"property": "C61", "status": "partial", "theorems": ["Pdffit.C61.C61_text_partial", "Pdffit.C61.C61_engine", "Pdffit.C61.C61_refused", "Pdffit.C61.C61_threads_partial", "Pdffit.C61.python_not_restored", "Pdffit.C61.two_threads", "Pdffit.C61.redirect_during", "Pdffit.C61.restore_during", "Pdffit.C61.write_error"], "note": "Proved for all single-threaded programs with files that take all texts and no Python message between restore_stdout and the next redirection, for the engine without that restriction, and for all interleavings of threads without redirection. The excluded cases are violations, proved with witnesses."},
 {"property": "C62", "status": "partial", "theorems": ["Pdffit.C62.derivatives_true_partial", "Pdffit.C62.gradient_true_partial"], "note": "Holds for every history of calls, every formula inside its domain, parameters shared by several variables, and all variables whose column of fit_a is right by C44. Missing because violated by the code: replaced constraints (C08), angles, oblique cells, qbroad of several phases, zero occupancy, dscale or diameter (C44). Points at which a choice of the program is at its threshold are left out."},
 {"property": "C63", "status": "partial", "theorems": ["Pdffit.C63.C63_int_partial", "Pdffit.C63.huge_qmax", "Pdffit.C63.small_qmax", "Pdffit.C63.tiny_cell", "Pdffit.C63.witness", "Pdffit.C63.filter_lost"], "note": "The checked calculation equals the one with unbounded integers under the stated sizes. The sizes are not checked by the program; the violations are proved."},
 {"property": "C64", "status": "partial", "theorems": ["Pdffit.C64.value_read", "Pdffit.C64.value_std_read", "Pdffit.C64.value_std_read_py", "Pdffit.C64.std_shown", "Pdffit.C64.phase_read_partial", "Pdffit.C64.diameter_shown", "Pdffit.C64.stepcut_shown", "Pdffit.C64.corr_shown", "Pdffit.C64.off_shown", "Pdffit.C64.symbol_found", "Pdffit.C64.pars_read", "Pdffit.C64.coarser", "Pdffit.C64.deviation_lost"], "note": "Reading back is proved for all values, phases and lists of parameters (phase_read_partial, pars_read, with the error bound in value_read). Full claim fails for two quantities: the value is cut to 6 digits even if its deviation is smaller (coarser), and deviations of off-diagonal displacement parameters are not printed when the values are zero (deviation_lost)."},
 {"property": "C65", "status": "partial", "theorems": ["Pdffit.C65.C65_correlations_partial", "Pdffit.C65.C65_before", "Pdffit.C65.unfinished", "Pdffit.C65.unfinished_reachable", "Pdffit.C65.stale", "Pdffit.C65.new_parameter"], "note": "After every finished refinement the list is exactly the pairs above 0.8 with the right values. The claim fails between the steps of a refinement (infinite values, values above 1) and after a new parameter is defined (reads behind the arrays); these are proved."},
 {"property": "C66", "status": "proved", "theorems": ["Pdffit.C66.order_and_weights", "Pdffit.C66.setpar_order", "Pdffit.C66.units_and_formulas", "Pdffit.C66.same_fit"], "note": "Exact arithmetic. Rewritten formulas must have a value for all parameter values; the order theorem has no such condition."},
 {"property": "C67", "status": "proved", "theorems": ["Pdffit.C67.C67_minimum_is_kept", "Pdffit.C67.C67_perfect_model", "Pdffit.C67.C67_constrained"], "note": "Exact arithmetic; the points must determine the free parameters, otherwise the engine raises (C54)."},
 {"property": "C68", "status": "partial", "theorems": ["Pdffit.C68.C68_range_partial", "Pdffit.C68.C68_pdfrange_partial", "Pdffit.C68.C68_range_matters"], "note": "Proved when 5 sigma plus one grid step is at most the 1 A margin for every pair; without that the claim is false, proved with a concrete structure."},
 {"property": "C69", "status": "partial", "theorems": ["Pdffit.C69.C69_line", "Pdffit.C69.C69_listing", "Pdffit.C69.C69_error", "Pdffit.C69.C69_pair", "Pdffit.C69.C69_angle", "Pdffit.C69.C69_phase", "Pdffit.C69.C69_phase_pair", "Pdffit.C69.C69_phase_angle", "Pdffit.C69.C69_unassigned", "Pdffit.C69.symb_word", "Pdffit.C69.C69_complete", "Pdffit.C69.C69_assert", "Pdffit.C69.C69_no_phase", "Pdffit.C69.C69_index_partial", "Pdffit.C69.C69_index_beyond", "Pdffit.C69.C69_index_zero"], "note": "Proved for symbols and for indices of existing types; violations proved for the index 0 and for indices beyond the last type."},
 {"property": "C70", "status": "partial", "theorems": ["Pdffit.C70.C70_read", "Pdffit.C70.C70_settings_partial", "Pdffit.C70.C70_qmax", "Pdffit.C70.C70_qdamp", "Pdffit.C70.C70_qbroad_sign", "Pdffit.C70.C70_qbroad_partial", "Pdffit.C70.C70_diameter", "Pdffit.C70.C70_stepcut", "Pdffit.C70.C70_qbroad_negative"], "note": "The text is read back completely and 'not applied' is true for Qmax, Qdamp, particle diameter and step cutoff. A negative Qbroad is applied though the report denies it: C70_qbroad_negative."},
 {"property": "C71", "status": "partial", "theorems": ["Pdffit.C71.C71_base", "Pdffit.C71.C71_total", "Pdffit.C71.C71_short", "Pdffit.C71.C71_above", "Pdffit.C71.C71_share_partial", "Pdffit.C71.C71_occupancy"], "note": "Base line between and in front of the peaks, and as a lower bound, for all structures and selections without termination ripples. The share of the selected pairs is right only with equal occupancies; the violation is proved."},
 {"property": "C72", "status": "partial", "theorems": ["Pdffit.C72.C72_same", "Pdffit.C72.C72_split_partial", "Pdffit.C72.C72_positive", "Pdffit.C72.C72_nan", "Pdffit.C72.C72_partial_pdf"], "note": "Total PDFs are equal whenever both are numbers, for all divisions of the occupancies. The claim fails for partial PDFs and, when scattering factors add up to zero, for NaN; both are proved."},
 {"property": "C73", "status": "proved", "theorems": ["Pdffit.C73.C73_least_squares", "Pdffit.C73.C73_sharp", "Pdffit.C73.C73_accuracy", "Pdffit.C73.C73_one_parameter", "Pdffit.C73.C73_constrained"], "note": "Exact arithmetic. The hypothesis that the curve is linear in the free parameters is part of the claim; a step that changes the curve non-linearly is the subject of C05 and C54."},
 {"property": "C74", "status": "proved", "theorems": ["Pdffit.C74.C74_mix", "Pdffit.C74.C74_sharp", "Pdffit.C74.C74_accuracy", "Pdffit.C74.C74_one_parameter"], "note": "Numbers idealised as reals; a curve that is not a number is excluded at the start."},
 {"property": "C75", "status": "proved", "theorems": ["Pdffit.C75.C75_refine", "Pdffit.C75.C75_steps", "Pdffit.C75.C75_structure", "Pdffit.C75.C75_data"], "note": "whole refinement: variables, calculated PDF, chi-square and residual agree with each other when refine() returns and after every unfinished refine_step"},
 {"property": "C76", "status": "partial", "theorems": ["Pdffit.C76.C76_downhill_partial", "Pdffit.C76.C76_progress_partial", "Pdffit.C76.C76_stuck"], "note": "Downhill steps and progress with enough damping are proved for the whole calculation; that refine() returning unchanged parameters means a stationary chi-square is false (C76_stuck)."},
 {"property": "C77", "status": "partial", "theorems": ["Pdffit.C77.C77_numbers", "Pdffit.C77.C77_returns", "Pdffit.C77.C77_no_trace_partial", "Pdffit.C77.C77_not_number", "Pdffit.C77.C77_not_lists", "Pdffit.C77.C77_leak"], "note": "Proved which arguments are accepted and that ValueError and dataError leave no trace. Violated: a non-number is loaded as -1 and SystemError raised, two non-lists end the process, irregular values leak the arrays."},
 {"property": "C78", "status": "partial", "theorems": ["Pdffit.C78.C78_balanced_partial", "Pdffit.C78.C78_sequence_partial", "Pdffit.C78.C78_bonds", "Pdffit.C78.C78_fractions", "Pdffit.C78.C78_unbounded"], "note": "Proved for all functions of the module but two, for all sizes and sequences. bond_length_types and phase_fractions leak four and six lists per call (violations)."},
 {"property": "C79", "status": "partial", "theorems": ["Pdffit.C79.C79_returns", "Pdffit.C79.C79_effect", "Pdffit.C79.C79_kept", "Pdffit.C79.C79_again", "Pdffit.C79.C79_history", "Pdffit.C79.C79_after_refine", "Pdffit.C79.C79_failed_partial", "Pdffit.C79.C79_wraps", "Pdffit.C79.C79_failed", "Pdffit.C79.C79_dies"], "note": "Proved: which calls return, their whole effect, repeatability, independence of history, agreement with refine, no undefined behaviour. Violated by the code: coordinates outside the supercell are wrapped (C79_wraps), a raising call leaves variables changed (C79_failed), an undefined parameter ends the process (C79_dies)."},
 {"property": "C80", "status": "partial", "theorems": ["Pdffit.C80.C80_kept", "Pdffit.C80.C80_crw", "Pdffit.C80.C80_crw_partial", "Pdffit.C80.C80_after_refine_partial", "Pdffit.C80.C80_length", "Pdffit.C80.C80_shrinks", "Pdffit.C80.C80_first", "Pdffit.C80.C80_stale"], "note": "Proved: calc() after refine() reports the figures of the curve shown; nothing but a refinement changes them. Violated by the code after other calls: C80_stale, C80_first, C80_length, C80_shrinks."},
 {"property": "C81", "status": "partial", "theorems": ["Pdffit.C81.C81_same", "Pdffit.C81.same_ofNum", "Pdffit.C81.C81_terminates", "Pdffit.C81.C81_adopts", "Pdffit.C81.C81_row", "Pdffit.C81.C81_raises_partial", "Pdffit.C81.C81_never_moves", "Pdffit.C81.C81_silent", "Pdffit.C81.C81_silent_witness", "Pdffit.C81.C81_grid_same", "Pdffit.C81.C81_grid"], "note": "Violated for observed values: refine() returns normally with getrw() NaN (C81_silent, C81_silent_witness), and grids with NaN are accepted (C81_grid). Proved for weights and derivatives, and that a refinement ends and adopts only numbers. Arithmetic is otherwise exact."},
 {"property": "C82", "status": "proved", "theorems": ["Pdffit.C82.C82_exact", "Pdffit.C82.C82_terminates", "Pdffit.C82.C82_defined", "Pdffit.C82.C82_fixed", "Pdffit.C82.C82_descends", "Pdffit.C82.C82_not_worse", "Pdffit.C82.C82_lawful_rounded", "Pdffit.C82.C82_rounded", "Pdffit.C82.C82_binary64", "Pdffit.C82.C82_nearest"], "note": "For any arithmetic; doubles are modelled without overflow and underflow in Model/Binary.lean (C82_nearest: round to nearest, ties to even). The model of the curve is an arbitrary function, rounded or not. Intermediate results of a higher precision than what is stored are not covered."},
 {"property": "C83", "status": "partial", "theorems": ["Pdffit.C83.C83_dependent_raises_exact", "Pdffit.C83.C83_absorb_rounded", "Pdffit.C83.C83_no_influence_partial", "Pdffit.C83.C83_unreported", "Pdffit.C83.C83_reported_by_chance", "Pdffit.C83.C83_criterion", "Pdffit.C83.C83_false_alarm"], "note": "Violated in double arithmetic: dependent parameters are reported or not as one rounding goes, and determined ones may be reported (witnesses). Proved: exact arithmetic for dependent parameters of any kind, and every rounding for a parameter without any influence."},
 {"property": "C84", "status": "partial", "theorems": ["Pdffit.C84.C84_loaded", "Pdffit.C84.C84_structures", "Pdffit.C84.C84_data_partial", "Pdffit.C84.C84_raises", "Pdffit.C84.C84_alloc", "Pdffit.C84.C84_string", "Pdffit.C84.C84_late"], "note": "Proved for structures in all sequences of calls without SystemError, and for data sets if neither alloc nor read_data_string is called; for alloc, read_data_string and late errors the claim is false in the code, which is proved."},
 {"property": "C85", "status": "partial", "theorems": ["Pdffit.C85.C85_atoms", "Pdffit.C85.C85_current", "Pdffit.C85.C85_index_partial", "Pdffit.C85.C85_use", "Pdffit.C85.C85_distinct", "Pdffit.C85.C85_scat_string", "Pdffit.C85.C85_zero"], "note": "All of it is proved for all sequences of calls and the whole table, except that the index 0 does not raise, which is proved as a violation."},
 {"property": "C86", "status": "partial", "theorems": ["Pdffit.C86.C86_safe", "Pdffit.C86.C86_covers", "Pdffit.C86.C86_whole", "Pdffit.C86.C86_near", "Pdffit.C86.C86_increasing_partial", "Pdffit.C86.C86_select_partial", "Pdffit.C86.C86_before_partial", "Pdffit.C86.C86_lost_point", "Pdffit.C86.C86_last_rejected", "Pdffit.C86.C86_coarse"], "note": "getR() before the first calculation can lack the last point, and its last point can be rejected by pdfrange, because of rounding. Strict increase and selection need |rmin| <= 2^50 deltar. No overflow or underflow."},
 {"property": "C87", "status": "partial", "theorems": ["Pdffit.C87.C87_range", "Pdffit.C87.C87_range_raises", "Pdffit.C87.C87_alloc_accepts", "Pdffit.C87.C87_alloc_partial", "Pdffit.C87.C87_calc_undefined", "Pdffit.C87.C87_calc_partial", "Pdffit.C87.C87_limits_partial", "Pdffit.C87.C87_peak", "Pdffit.C87.C87_cell", "Pdffit.C87.C87_cell_partial", "Pdffit.C87.C87_bonds_undefined", "Pdffit.C87.C87_bonds_lower", "Pdffit.C87.C87_bonds_partial", "Pdffit.C87.C87_calc_large"], "note": "alloc, the cell check and bond_length_types accept NaN or infinite numbers with undefined behaviour afterwards (proved); pdfrange rejects them. Finite numbers are exact here."},
 {"property": "C88", "status": "partial", "theorems": ["Pdffit.C88.C88_valid", "Pdffit.C88.C88_angle_partial", "Pdffit.C88.C88_deviation", "Pdffit.C88.C88_symmetric_partial", "Pdffit.C88.C88_nearest", "Pdffit.C88.C88_straight", "Pdffit.C88.C88_straight_deviation", "Pdffit.C88.C88_asymmetric"], "note": "Doubles without overflow and underflow. The full claim is false: the angle of a straight bond may be NaN (C88_straight), its deviation is NaN or infinite (C88_deviation, C88_straight_deviation), and the last digit depends on the order of the atoms in cells that are not orthogonal (C88_asymmetric). Proved: index checks for all arguments; range, accuracy and finite deviation for bonds that are not nearly straight, in any cell that is not nearly singular; symmetry for orthogonal cells."},
 {"property": "C89", "status": "partial", "theorems": ["Pdffit.C89.once", "Pdffit.C89.once_double", "Pdffit.C89.complete", "Pdffit.C89.complete_double", "Pdffit.C89.exact_search", "Pdffit.C89.bonds", "Pdffit.C89.lost", "Pdffit.C89.lost_exact"], "note": "no point twice and loops end in full; completeness with an explicit margin, for constants with small relative errors (sine and cosine of the library are not modelled) and, for bonds, atoms within one cell edge; the margin is necessary (lost)"},
 {"property": "C90", "status": "partial", "theorems": ["Pdffit.C90.C90_curve_partial", "Pdffit.C90.C90_lattice", "Pdffit.C90.C90_table_partial", "Pdffit.C90.C90_length_partial", "Pdffit.C90.C90_angle_partial", "Pdffit.C90.naming_matters", "Pdffit.C90.direction_matters"], "note": "Curve, volume, reciprocal cell and table of distances do not depend on the description (differences of positions shorter than the diagonal of the cell); single bonds and angles with deviations in cells with right angles. In oblique cells violated: naming_matters, direction_matters."},
 {"property": "C91", "status": "partial", "theorems": ["Pdffit.C91.C91_cell_partial", "Pdffit.C91.C91_reach_partial", "Pdffit.C91.C91_count", "Pdffit.C91.distant_matters", "Pdffit.C91.cut_matters"], "note": "Curves are equal for all cells of the same crystal, if the atoms are listed with images at most one circumscribed diameter apart and there is no step cut, or the step cut with the tails of the peaks is within the reach of the search; false for distant images (distant_matters), as in C60, and for a step cut with wide peaks (cut_matters)."},
 {"property": "C92", "status": "partial", "theorems": ["Pdffit.C92.C92_infinite_partial", "Pdffit.C92.C92_tail", "Pdffit.C92.C92_sum", "Pdffit.C92.C92_below_partial", "Pdffit.C92.C92_wide"], "note": "For peaks with five widths and a step of at most 1 A (all distances, or those up to any limit beyond the range, for Qbroad), no Qmax cutoff, and atoms listed within the reach of the search: the calculated curve differs from the infinite sum by the tails beyond five widths only, which are bounded and summable. False for wide peaks (C92_wide)."},
 {"property": "C93", "status": "partial", "theorems": ["Pdffit.C93.C93_units_partial", "Pdffit.C93.C93_unit_matters"], "note": "Proved if no peak is wider than 1 and no two atoms are closer than 0.1 in either unit. Violated otherwise: pairs closer than 0.1 are left out (C93_unit_matters)."},
 {"property": "C94", "status": "partial", "theorems": ["Pdffit.C94.C94_course", "Pdffit.C94.C94_shown", "Pdffit.C94.C94_read_partial", "Pdffit.C94.C94_near", "Pdffit.C94.C94_printed", "Pdffit.C94.C94_small", "Pdffit.C94.C94_same"], "note": "Course of the messages and reading of their text proved for all refinements; violated: a parameter below 5e-7 is printed without any of its digits (C94_small, C94_same)."},
 {"property": "C95", "status": "partial", "theorems": ["Pdffit.C95.C95_read", "Pdffit.C95.C95_inverse_partial", "Pdffit.C95.C95_volume", "Pdffit.C95.C95_large", "Pdffit.C95.C95_large_text"], "note": "Text read back for all values; inverse tensors for cells without suppressed elements, volume and number density for all cells; violated for cells with long edges (C95_large, C95_large_text)."},
 {"property": "C96", "status": "proved", "theorems": ["Pdffit.C96.C96_order"], "note": "refine() for the same data sets in two orders: returns in both or in none, with the same results. Exact arithmetic; the type of an exception is not compared."},
 {"property": "C97", "status": "partial", "theorems": ["Pdffit.C97.C97_order_partial", "Pdffit.C97.C97_order_violated"], "note": "Violated when qbroad of a data set with several phases is refined (factor of the phase read last): C97_order_violated. Otherwise proved: same outcome, steps and results in any order of the structures."},
 {"property": "C98", "status": "partial", "theorems": ["Pdffit.C98.C98_pdf_partial", "Pdffit.C98.C98_dif_partial", "Pdffit.C98.C98_single", "Pdffit.C98.C98_violated"], "note": "Violated by the code: near 500 A a regular grid is refused after rounding to six digits, and a single point is refused. Below 100 A with two points or more the text is accepted with the values, range and step."},
 {"property": "C99", "status": "partial", "theorems": ["Pdffit.C99.C99_same_partial", "Pdffit.C99.C99_again_partial", "Pdffit.C99.C99_scat_violated", "Pdffit.C99.C99_members"], "note": "Scattering factors are not saved (C99_scat_violated). With the same factors and no more digits than printed, the PDF is the same."},
 {"property": "C100", "status": "partial", "theorems": ["Pdffit.C100.C100_fit_partial", "Pdffit.C100.C100_rw", "Pdffit.C100.C100_rw_refined", "Pdffit.C100.C100_single_violated", "Pdffit.C100.C100_rw_violated", "Pdffit.C100.C100_passes"], "note": "showfit fails for a range with one point (C100_single_violated), showRw before a refinement (C100_rw_violated); the rest is proved for all histories."},
 {"property": "C101", "status": "partial", "theorems": ["Pdffit.C101.C101_values", "Pdffit.C101.C101_start_partial", "Pdffit.C101.C101_cut_partial"], "note": "Values and weights outside the fit range, and points after it, have no influence on a refinement. Points before the range can be cut away without influence on the calculated curve and on a refinement if one point remains before the range of the calculation. Missing: data that begin with the range of the calculation."},
 {"property": "C102", "status": "partial", "theorems": ["Pdffit.C102.C102_between_partial", "Pdffit.C102.C102_peak_partial"], "note": "Atoms further apart than the diagonal of the supercell (C19.missed) and broad peaks (C68) are excluded, where the program misses pairs; no termination ripples."},
 {"property": "C103", "status": "partial", "theorems": ["Pdffit.C103.C103_listed_partial", "Pdffit.C103.C103_first_partial", "Pdffit.C103.C103_shortest_violated"], "note": "bond_length_atoms is not the shortest entry (C103_shortest_violated). Listed: for atoms not further apart than the diagonal of the supercell; shortest: rectangular cells, coordinates at most half a supercell apart."},
 {"property": "C104", "status": "partial", "theorems": ["Pdffit.C104.C104_cosines_partial", "Pdffit.C104.C104_listed_partial"], "note": "For cells without suppressed elements of the metric; the entry in the list also needs atoms not further apart than the diagonal of the supercell (C19.missed)."},
 {"property": "C105", "status": "partial", "theorems": ["Pdffit.C105.C105_part_partial", "Pdffit.C105.C105_mirror_partial", "Pdffit.C105.C105_part_violated"], "note": "Proved for atoms not further apart than the diagonal of the supercell; otherwise false (C105_part_violated). The order of bonds of equal length is not compared."},
 {"property": "C106", "status": "partial", "theorems": ["Pdffit.C106.C106_curve_partial", "Pdffit.C106.C106_unselected_partial", "Pdffit.C106.C106_returns_violated"], "note": "Proved for calls that return. Whether calc() returns can depend on a phase that is not selected (C106_returns_violated)."},
 {"property": "C107", "status": "proved", "theorems": ["Pdffit.C107.C107_phase", "Pdffit.C107.C107_pdf", "Pdffit.C107.C107_calc"], "note": "Exact arithmetic, as in the other theorems about the PDF."},
 {"property": "C108", "status": "partial", "theorems": ["Pdffit.C108.C108_noted", "Pdffit.C108.C108_kept_partial", "Pdffit.C108.C108_imports_partial", "Pdffit.C108.C108_fails_iff", "Pdffit.C108.C108_imports_violated", "Pdffit.C108.C108_fetched_violated", "Pdffit.C108.C108_kept_violated"], "note": "Proved for imports without failing writes and for the two foreseen kinds of exceptions; the import fails for other replies, a date obtained is dropped when the package is not writable, a line written in part is kept (proved)."},
 {"property": "C109", "status": "partial", "theorems": ["Pdffit.C109.C109_box_partial", "Pdffit.C109.C109_version_partial", "Pdffit.C109.C109_date_partial", "Pdffit.C109.C109_box_violated", "Pdffit.C109.C109_date_violated"], "note": "Proved for versions of up to 30 characters and dates that are not blank; a longer version makes its line too long, an empty date removes a star (proved)."},
 {"property": "C110", "status": "partial", "theorems": ["Pdffit.C110.C110_methods", "Pdffit.C110.C110_constants", "Pdffit.C110.C110_last", "Pdffit.C110.C110_others_partial", "Pdffit.C110.C110_files_partial", "Pdffit.C110.C110_others_violated", "Pdffit.C110.C110_files_violated"], "note": "Proved for all names but __builtins__, and for the lists of files without reset(); reset() leaves the exported lists behind, a plain dictionary obtains __builtins__ (proved)."}
]}
