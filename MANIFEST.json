{
 "claims": [
  {
   "property": "C01",
   "status": "proved",
   "theorems": [
    "Pydsge.C01_expected_paths_solve_declared_model"
   ],
   "note": "Exact arithmetic; rq/klein contracts; no coefficient inside the fast0 tolerance."
  },
  {
   "property": "C02",
   "status": "proved",
   "theorems": [
    "Pydsge.C02_never_below_bound"
   ],
   "note": "k_max >= 1; constrained variable occurs in its constraint row."
  },
  {
   "property": "C03",
   "status": "proved",
   "theorems": [
    "Pydsge.C03_flag_zero_is_max"
   ],
   "note": "Constraint with current variables (not the constrained one itself) and shocks."
  },
  {
   "property": "C04",
   "status": "proved",
   "theorems": [
    "Pydsge.C04_search_sound_complete_minimal"
   ],
   "note": ""
  },
  {
   "property": "C05",
   "status": "partial",
   "theorems": [
    "Pydsge.C05_transition_stays_inside_partial",
    "Pydsge.C05_search_stays_inside_partial",
    "Pydsge.C05_kmax_zero_refuted",
    "Pydsge.C05_kmax_zero_outcome"
   ],
   "note": "Holds for k_max >= 1; refuted for k_max = 0, which prep_estim(linear=True) sets. C05_kmax_zero_outcome: all outcomes for k_max = 0."
  },
  {
   "property": "C06",
   "status": "proved",
   "theorems": [
    "Pydsge.C06_no_uninitialised_cell"
   ],
   "note": ""
  },
  {
   "property": "C07",
   "status": "proved",
   "theorems": [
    "Pydsge.C07_parallel_equals_serial",
    "Pydsge.C07_tmats_parallel_equals_serial"
   ],
   "note": "prange bodies atomic, arbitrary order."
  },
  {
   "property": "C08",
   "status": "proved",
   "theorems": [
    "Pydsge.C08_linear_solution_everywhere"
   ],
   "note": ""
  },
  {
   "property": "C09",
   "status": "proved",
   "theorems": [
    "Pydsge.C09_superposition",
    "Pydsge.C09_shocks_scale",
    "Pydsge.C09_shocks_add"
   ],
   "note": "set_k not imposed; repeated (shock, period) entries: see C66."
  },
  {
   "property": "C10",
   "status": "proved",
   "theorems": [
    "Pydsge.C10_steady_state_fixed_point",
    "Pydsge.C10_simulation_stays"
   ],
   "note": ""
  },
  {
   "property": "C100",
   "status": "partial",
   "theorems": [
    "Pydsge.C100_debug_partial",
    "Pydsge.C100_debug_hypotheses_met",
    "Pydsge.C100_debug_refuted",
    "Pydsge.C100_debug_iff",
    "Pydsge.C100_debug_run_iff"
   ],
   "note": "Refuted: debug=True, or a failing extraction with the Kalman filter, leaves the model in debug mode for ever; proved for calls without debug=True and successful Kalman extractions. The exact condition (or the whole outcome) is proved as well."
  },
  {
   "property": "C101",
   "status": "partial",
   "theorems": [
    "Pydsge.C101_closed_partial",
    "Pydsge.C101_closed_hypotheses_met",
    "Pydsge.C101_closed_refuted",
    "Pydsge.C101_running_iff"
   ],
   "note": "Refuted if the loop over the samples raises (the pool is not closed); proved for successful calls. The exact condition (or the whole outcome) is proved as well."
  },
  {
   "property": "C102",
   "status": "partial",
   "theorems": [
    "Pydsge.C102_init_cov_partial",
    "Pydsge.C102_ensemble_partial",
    "Pydsge.C102_ensemble_hypotheses_met",
    "Pydsge.C102_init_cov_refuted",
    "Pydsge.C102_kalman_refuted",
    "Pydsge.C102_ensemble_values",
    "Pydsge.C102_ensemble_iff",
    "Pydsge.C102_iff_hypotheses_met",
    "Pydsge.C102_kalman_value"
   ],
   "note": "Refuted: the covariance is kept in the filter for all later runs; proved for sequences in which it is given always or never. The exact condition (or the whole outcome) is proved as well."
  },
  {
   "property": "C103",
   "status": "proved",
   "theorems": [
    "Pydsge.C103_unique_path",
    "Pydsge.C103_characterisation",
    "Pydsge.C103_hypotheses_met"
   ],
   "note": "For models whose constraint has no lags (rc = 0), with rb cvar /= 1 and (rb cvar = 0 or no shocks in the constraint); 'joins the linear solution' is stated with t_func(set_k=(0,0))."
  },
  {
   "property": "C104",
   "status": "proved",
   "theorems": [
    "Pydsge.C104_same_paths",
    "Pydsge.C104_same_reader",
    "Pydsge.C104_same_transition",
    "Pydsge.C104_same_simulation",
    "Pydsge.C104_linear_of_stable",
    "Pydsge.C104_hypotheses_met"
   ],
   "note": "Agreement of the two linear solutions is a hypothesis (SameLinear), derived in C104_linear_of_stable if both return to the steady state and the declared equations have one such path. Lags of expected variables in the constraint are excluded (C24). The auxiliary variables, the y-space and the rq rotation may differ between the two."
  },
  {
   "property": "C105",
   "status": "proved",
   "theorems": [
    "Pydsge.C105_larger_tables",
    "Pydsge.C105_larger_bounds",
    "Pydsge.C105_hypotheses_met",
    "Pydsge.C105_any_tables",
    "Pydsge.C105_larger_find",
    "Pydsge.C105_simulate",
    "Pydsge.C105_any_hypotheses_met"
   ],
   "note": "Restricted to k > 0, flag 0, l_max < 999 and (the same k_max or l = 0): with more columns and l > 0 the search may pick another pair first.  Without these restrictions: where equilibria are unique (no reversal, C161/C173) and flag 0 means equilibrium (C193), the states agree for any two sizes (C105_any_tables), for larger tables flag 0 is kept (C105_larger_find), and whole simulations agree (C105_simulate)."
  },
  {
   "property": "C106",
   "status": "proved",
   "theorems": [
    "Pydsge.C106_paths_scale",
    "Pydsge.C106_transition_scales",
    "Pydsge.C106_simulation_scales",
    "Pydsge.C106_hypotheses_met"
   ],
   "note": "In exact arithmetic; the two linear solutions agree (SameLinear). Lags of expected variables in the constraint are excluded (C24)."
  },
  {
   "property": "C107",
   "status": "proved",
   "theorems": [
    "Pydsge.C107_horizon",
    "Pydsge.C107_continue",
    "Pydsge.C107_C109_hypotheses_met"
   ],
   "note": ""
  },
  {
   "property": "C108",
   "status": "partial",
   "theorems": [
    "Pydsge.C108_causal_partial",
    "Pydsge.C108_causal_refuted",
    "Pydsge.C108_silent",
    "Pydsge.C108_unique",
    "Pydsge.C18_no_difference_met"
   ],
   "note": "Refuted for default arguments: whether any shock is outside period 0 decides in all periods whether the old spell is continued (tools.py:255). Holds with force_init_equil=False, or if both lists (or neither) contain a shock outside period 0. C108_silent: holds if neither response comes with the message about multiplicities.  With force_init_equil too, where equilibria are unique and flag 0 means an equilibrium: C108_unique."
  },
  {
   "property": "C109",
   "status": "proved",
   "theorems": [
    "Pydsge.C109_irfs_is_simulate",
    "Pydsge.C107_C109_hypotheses_met"
   ],
   "note": ""
  },
  {
   "property": "C11",
   "status": "proved",
   "theorems": [
    "Pydsge.C11_slots_equal_simulation",
    "Pydsge.C11_tmat_equals_simulation"
   ],
   "note": ""
  },
  {
   "property": "C110",
   "status": "partial",
   "theorems": [
    "Pydsge.C110_mask_replaces_partial",
    "Pydsge.C110_mask_replaces_refuted",
    "Pydsge.C110_iff"
   ],
   "note": "Refuted: the default operation is np.multiply, so that a mask x replaces the shock e by x*e. Holds for masks of zeros and NaN, or with an operation that returns its first argument. C110_iff is the exact condition."
  },
  {
   "property": "C111",
   "status": "partial",
   "theorems": [
    "Pydsge.C111_mask_by_label_partial",
    "Pydsge.C111_mask_by_label_refuted",
    "Pydsge.C111_mask_by_label_iff",
    "Pydsge.C111_iff_hypotheses_met"
   ],
   "note": "Holds with as many observables as shocks. Refuted with one observable and two shocks (the single column is broadcast to all shocks) and with three shocks (columns are appended in the order of assignment, and simulate goes by position). pandas and numpy broadcasting are modelled by contract. The exact condition (or the whole outcome) is proved as well."
  },
  {
   "property": "C112",
   "status": "proved",
   "theorems": [
    "Pydsge.C112_shock2state"
   ],
   "note": "On lists with Python's slice rules."
  },
  {
   "property": "C113",
   "status": "partial",
   "theorems": [
    "Pydsge.C113_densities_of_draws_partial",
    "Pydsge.C113_densities_of_draws_refuted",
    "Pydsge.C113_methods",
    "Pydsge.C113_hypotheses_met",
    "Pydsge.C113_source",
    "Pydsge.C113_given_iff",
    "Pydsge.C113_given_summary_iff",
    "Pydsge.C113_iff_hypotheses_met"
   ],
   "note": "Proved if neither chain nor densities are given. Refuted if a chain is given: it is combined with the densities of the stored chain (always in mcmc_summary, in mdd unless lprobs is given, too). The exact condition (or the whole outcome) is proved as well."
  },
  {
   "property": "C114",
   "status": "partial",
   "theorems": [
    "Pydsge.C114_chain_of_parameters_partial",
    "Pydsge.C114_chain_of_parameters_refuted",
    "Pydsge.C114_chain_iff",
    "Pydsge.C114_iff_hypotheses_met"
   ],
   "note": "Proved for histories in which use_prior_transform never changes. Refuted: the transformation of the last prep_estim is applied, not the one in use while sampling. The exact condition (or the whole outcome) is proved as well."
  },
  {
   "property": "C115",
   "status": "proved",
   "theorems": [
    "Pydsge.C115_posterior_csv"
   ],
   "note": "The chain is modelled as step, walker, parameter; pandas' to_csv is trusted."
  },
  {
   "property": "C116",
   "status": "partial",
   "theorems": [
    "Pydsge.C116_expectations_come_true_partial",
    "Pydsge.C116_expectations_come_true_refuted",
    "Pydsge.C116_hypotheses_met",
    "Pydsge.C173_expectations_come_true_partial",
    "Pydsge.C173_expectations_hypotheses_met",
    "Pydsge.C116_only_if",
    "Pydsge.C116_exact",
    "Pydsge.C174_from_impact",
    "Pydsge.C174_from_impact_hypotheses_met"
   ],
   "note": "Holds if the expected path satisfies the constraint in every period and no other spell passes the tests in the periods in which the spell still lasts; refuted in general since the search tests five periods only, with an oscillating model for all table sizes.  Exact condition: as long as a response follows the announced path without an error, that path satisfies the constraint (C116_only_if, without uniqueness); where equilibria are unique and later reports are equilibria, following over every horizon is equivalent to the announced path being an equilibrium (C116_exact; hypotheses met by Ex17, C174_from_impact_hypotheses_met)."
  },
  {
   "property": "C117",
   "status": "proved",
   "theorems": [
    "Pydsge.C117_complete_vector_decides",
    "Pydsge.C117_estimated_vectors",
    "Pydsge.LastWinsEx.C117_hypotheses_met"
   ],
   "note": "Relational: two runs with different histories; failed calls included."
  },
  {
   "property": "C118",
   "status": "proved",
   "theorems": [
    "Pydsge.C118_assignments_commute"
   ],
   "note": "Same outcome and same attributes on success, for distinct names; overwriting for equal names."
  },
  {
   "property": "C119",
   "status": "proved",
   "theorems": [
    "Pydsge.C119_each_sample_its_own",
    "Pydsge.C119_outcome",
    "Pydsge.C119_sample_forms",
    "Pydsge.C119_mixture_needs_uniform"
   ],
   "note": "For arbitrary schedules; the filter and smoother are a function of the model and the seed (they are seeded per task). Mixtures of complete and partial vectors are excluded, with a counterexample."
  },
  {
   "property": "C12",
   "status": "partial",
   "theorems": [
    "Pydsge.C12_traj_shifted_partial",
    "Pydsge.C12_pair",
    "Pydsge.C12_traj_refuted",
    "Pydsge.C12_declared",
    "Pydsge.C12_edge",
    "Pydsge.C12_other_path",
    "Pydsge.C12_declared_met",
    "Pydsge.C12_edge_met"
   ],
   "note": "The code uses column k-1 (and wraps around for k=0); refuted with a concrete model, what is returned is proved. A single number l or k is ignored.  In terms of the declared model: the values are those of the constraint equation along the path expected under (l,k-1) (C12_declared); they are right if the equation gives the bound exactly in the last period of the spell (C12_edge); at a reported equilibrium with k >= 2 it is always another path than the expected one (C12_other_path; case Ex17: -11/8 instead of -7/4)."
  },
  {
   "property": "C120",
   "status": "partial",
   "theorems": [
    "Pydsge.C120_parameters_kept_partial",
    "Pydsge.C120_last_sample_stays",
    "Pydsge.C120_parameters_kept_refuted",
    "Pydsge.C120_parameters_kept_iff"
   ],
   "note": "Refuted: with the Kalman filter or without a pool the model keeps the last vector of the sample. Holds with a pool of processes, and if no sample is given. The exact condition (or the whole outcome) is proved as well."
  },
  {
   "property": "C121",
   "status": "partial",
   "theorems": [
    "Pydsge.C121_names_as_declared",
    "Pydsge.C121_file_solved",
    "Pydsge.C121_clashes_rejected_partial",
    "Pydsge.C121_clashes_rejected_refuted",
    "Pydsge.C176_accepted_iff"
   ],
   "note": "Meaning of names and the end-to-end statement are proved in full. Clashes: a parameter with the name of a shock is accepted (the name means the shock), so the claim about clashes holds for variables only. Which files are accepted is settled exactly by `C176_accepted_iff`."
  },
  {
   "property": "C122",
   "status": "partial",
   "theorems": [
    "Pydsge.C122_malformed_partial",
    "Pydsge.C122_malformed_refuted",
    "Pydsge.C176_accepted_iff"
   ],
   "note": "Refuted in general: two '=' in a model equation give ValueError, an undeclared name in a measurement equation TypeError. Proved for the listed defects in files with one constraint and at most one '=' per equation. Which files are accepted is settled exactly by `C176_accepted_iff`."
  },
  {
   "property": "C123",
   "status": "partial",
   "theorems": [
    "Pydsge.C123_used_names_needed",
    "Pydsge.C123_used_names_suffice_partial",
    "Pydsge.C123_all_used_accepted_refuted",
    "Pydsge.C176_accepted_iff"
   ],
   "note": "Refuted in general: a shock that is used in the constraint only is rejected, since only model equations are searched. Proved: use in a model equation is necessary, and sufficient for the treatment of leads and lags. Which files are accepted is settled exactly by `C176_accepted_iff`."
  },
  {
   "property": "C124",
   "status": "partial",
   "theorems": [
    "Pydsge.C124_success_partial",
    "Pydsge.C124_success_state",
    "Pydsge.C124_failure_partial",
    "Pydsge.C124_settings_stick",
    "Pydsge.C124_failure_refuted"
   ],
   "note": "The success half is proved (functions and filter; parameters, solution, generator, pool). The failure half is refuted: settings, parameters and filter of the failed call stay, so that the old density changes its values; with pool None even the new functions stay. Proved: data, stored R, mode, pool, and (pool not None) the functions survive."
  },
  {
   "property": "C125",
   "status": "partial",
   "theorems": [
    "Pydsge.C125_same_model_partial",
    "Pydsge.C125_other_parameters_refuted",
    "Pydsge.C125_order_refuted"
   ],
   "note": "Refuted if parameters that are not estimated were set after loading (the density uses their calibrated values), and if all parameters are estimated in another order than declared. Proved if the others have their calibrated values and not all are estimated, or all in the declared order."
  },
  {
   "property": "C126",
   "status": "partial",
   "theorems": [
    "Pydsge.C126_density_partial",
    "Pydsge.C126_extract_refuted",
    "Pydsge.C126_density_refuted"
   ],
   "note": "Refuted: extract with a reduced ensemble filter replaces the filter, and init_cov stays. Proved for all other sequences of lprob, set_par, save_meta and extract."
  },
  {
   "property": "C127",
   "status": "partial",
   "theorems": [
    "Pydsge.C127_bounds_partial",
    "Pydsge.C127_linear_sticks_refuted",
    "Pydsge.C127_density_bounds",
    "Pydsge.C127_density_refuted",
    "Pydsge.C127_density_hypotheses_met"
   ],
   "note": "Refuted in every model: k_max stays 0 until bounds are given explicitly. Proved: bounds after prep_estim, and after set_par with explicit bounds. Every evaluation of the density with a finite value writes the bounds of the preparation to the model again, also after explicit bounds were set (C127_density_bounds, C127_density_refuted)."
  },
  {
   "property": "C128",
   "status": "partial",
   "theorems": [
    "Pydsge.C128_prepared_partial",
    "Pydsge.C128_unprepared_refuted",
    "Pydsge.C128_iff"
   ],
   "note": "Refuted in every model without stored filter_R: always raises. Proved: after prep_estim, or with stored filter_R. The exact condition (or the whole outcome) is proved as well."
  },
  {
   "property": "C129",
   "status": "partial",
   "theorems": [
    "Pydsge.C129_dispatch_refuted",
    "Pydsge.C129_kalman_partial"
   ],
   "note": "Refuted in every model for the ensemble filter: raises, or (without dry run) the density is minus infinity everywhere. Proved for the Kalman filter, which ignores the argument."
  },
  {
   "property": "C13",
   "status": "partial",
   "theorems": [
    "Pydsge.C13_current_parameters_partial",
    "Pydsge.C13_stale_tables_refuted",
    "Pydsge.C13_outcome"
   ],
   "note": "precalc_tmat is never invalidated by set_par; histories without set_par after the first traj/k_map are proved. C13_outcome: what every later call returns, after any calls in between."
  },
  {
   "property": "C130",
   "status": "proved",
   "theorems": [
    "Pydsge.C130_measurement_errors",
    "Pydsge.C130_load_R"
   ],
   "note": ""
  },
  {
   "property": "C131",
   "status": "proved",
   "theorems": [
    "Pydsge.C131_small_disturbances_linear",
    "Pydsge.C131_small_shocks_never_bind",
    "Pydsge.C131_locally_stable",
    "Pydsge.C131_hypotheses_met"
   ],
   "note": ""
  },
  {
   "property": "C132",
   "status": "partial",
   "theorems": [
    "Pydsge.C132_expected_paths_return",
    "Pydsge.C132_irfs_return_partial",
    "Pydsge.C132_irfs_return_refuted",
    "Pydsge.C132_irfs_return_lags_partial",
    "Pydsge.Ex9.C132_lags_hypotheses_met",
    "Pydsge.C132_irfs_return_from_impact"
   ],
   "note": "Expected paths return, for every spell. Impulse responses return if they start in an equilibrium that satisfies the constraint in all periods and has no rival. In general refuted: a model that is stable without the constraint and explodes when the search finds no equilibrium, for all table sizes. The same for constraints with lags, shocks and the constrained variable itself.  Under uniqueness and FlagMeansEquilibrium, flag 0 at impact is enough (C132_irfs_return_from_impact)."
  },
  {
   "property": "C133",
   "status": "proved",
   "theorems": [
    "Pydsge.Text.C133_powers",
    "Pydsge.Text.C133_semicolons",
    "Pydsge.Text.C133_none_left",
    "Pydsge.Text.C133_plain_unchanged"
   ],
   "note": ""
  },
  {
   "property": "C134",
   "status": "partial",
   "theorems": [
    "Pydsge.Text.C134_continuation_partial",
    "Pydsge.Text.C134_continuation_refuted",
    "Pydsge.Text.C134_idempotent_refuted",
    "Pydsge.Text.C134_continuation_iff",
    "Pydsge.Text.C134_iff_hypotheses_met"
   ],
   "note": "Holds with at most one blank after the `@`, if it is not preceded by another `@`. With two blanks the line is not continued. Preparing a text twice can differ from preparing it once. The exact condition (or the whole outcome) is proved as well."
  },
  {
   "property": "C135",
   "status": "partial",
   "theorems": [
    "Pydsge.Text.C135_markers_partial",
    "Pydsge.Text.C135_markers_refuted"
   ],
   "note": "Holds for entries that are indented by at least one blank (with three and more: if exactly one blank follows the marker) and whose line is not a continuation. Refuted without indentation."
  },
  {
   "property": "C136",
   "status": "partial",
   "theorems": [
    "Pydsge.Text.C136_comment_text_partial",
    "Pydsge.Text.C136_comment_removed_partial",
    "Pydsge.Text.C136_comments_refuted",
    "Pydsge.Text.C136_equation_lost",
    "Pydsge.Text.C136_comment_removed_iff"
   ],
   "note": "Holds for comments without `@`, and for leaving out if there is no `@` right before. Refuted: a comment that ends in `@` swallows the next line (an equation is lost silently), a comment after the continuation sign undoes the continuation. Quoted texts are not modelled. The exact condition (or the whole outcome) is proved as well."
  },
  {
   "property": "C137",
   "status": "partial",
   "theorems": [
    "Pydsge.C137_range",
    "Pydsge.C137_zero_iff",
    "Pydsge.C137_one_iff",
    "Pydsge.C137_more_rows_fail",
    "Pydsge.C137_single_shock_refuted",
    "Pydsge.C137_first_largest"
   ],
   "note": "Proved for at least two shocks and at most as many rows as shocks. It is one only if there are as many rows as shocks. With more rows it raises, with a single shock it divides by zero. The first statement of `mbcs_index`, which is to provide the array, fails (C78).  What is picked is the first of the largest values in the order of the memory (C137_first_largest)."
  },
  {
   "property": "C138",
   "status": "partial",
   "theorems": [
    "Pydsge.C138_accepted_iff",
    "Pydsge.C138_well_formed",
    "Pydsge.C138_calibration",
    "Pydsge.C138_priors_partial",
    "Pydsge.C138_unknown_raises",
    "Pydsge.C138_empty_refuted"
   ],
   "note": "Refuted for sections that are there but empty (TypeError, AttributeError). `C138_well_formed` discharges the assumption WF of C30-C35, C73, C118 for models that were read."
  },
  {
   "property": "C139",
   "status": "partial",
   "theorems": [
    "Pydsge.C139_one_partial",
    "Pydsge.C139_rows_partial",
    "Pydsge.C139_several_refuted",
    "Pydsge.C139_simulate"
   ],
   "note": "Refuted for `irfs` with two or more sets of parameters: the rows are stacked, so that the pair cannot be taken apart and the second row is the l of the second set."
  },
  {
   "property": "C14",
   "status": "proved",
   "theorems": [
    "Pydsge.C14_impose_found_equilibrium"
   ],
   "note": ""
  },
  {
   "property": "C140",
   "status": "proved",
   "theorems": [
    "Pydsge.Spec.contains_extend",
    "Pydsge.C140_core_paths",
    "Pydsge.C140_core_reader",
    "Pydsge.C140_core_transition",
    "Pydsge.C140_core_simulation",
    "Pydsge.C140_linear_of_determinate",
    "Pydsge.C140_linear_of_stable",
    "Pydsge.C140_hypotheses_met"
   ],
   "note": "Agreement of the linear solutions on the core is a hypothesis (SameLinearCore); it is derived if the core is determinate among paths with some property that both linear solutions have, in particular if both return to the steady state. Lags of expected variables in the constraint are excluded (C24)."
  },
  {
   "property": "C141",
   "status": "partial",
   "theorems": [
    "Pydsge.C141_extract_refuted",
    "Pydsge.C141_unchanged_refuted",
    "Pydsge.C141_pairing",
    "Pydsge.C141_whole_sample",
    "Pydsge.C141_seed",
    "Pydsge.C141_linear_shares",
    "Pydsge.C141_model_afterwards",
    "Pydsge.C141_hypotheses_met",
    "Pydsge.C141_pairing_one",
    "Pydsge.C141_pairing_one_fails",
    "Pydsge.C141_extract_repaired"
   ],
   "note": "Refuted in two points: gfevd reads the entry `means`, which extract does not return (KeyError for every result of extract), and after the call the model has the parameters of the draw that came last. Pairing, independence of the seed and the formula for the linear shares are proved for all dictionaries that have the entry. Arrays with two axes: parameters are not repeated (C141_pairing_one, C141_pairing_one_fails). With an entry `means` the result of extract is paired as it should be (`C141_extract_repaired`)."
  },
  {
   "property": "C142",
   "status": "proved",
   "theorems": [
    "Pydsge.C142_slack_convex",
    "Pydsge.C142_slack_shrinks",
    "Pydsge.C142_simulations_mix",
    "Pydsge.C142_piecewise_affine",
    "Pydsge.C142_mixture_has_equilibrium",
    "Pydsge.C142_hypotheses_met"
   ],
   "note": "For k_max >= 1; fractions need a negative bound; the existence of equilibria of mixtures needs l_max below the sentinel 999."
  },
  {
   "property": "C143",
   "status": "partial",
   "theorems": [
    "Pydsge.C143_refuted",
    "Pydsge.C143_tiny_lags_violate",
    "Pydsge.C143_other_variables_ignored",
    "Pydsge.C01_expected_paths_solve_declared_model"
   ],
   "note": "Refuted: a lag with coefficients below the tolerance of fast0 is dropped without notice; two states that differ in that variable give the same path although the declared equations tell them apart, by any amount. With all coefficients zero or above the tolerance (NoTiny) the claim is C01."
  },
  {
   "property": "C144",
   "status": "proved",
   "theorems": [
    "Pydsge.C144_results",
    "Pydsge.C144_first_exception",
    "Pydsge.C144_model_unchanged",
    "Pydsge.C144_selection",
    "Pydsge.C144_hypotheses_met"
   ],
   "note": "Heap model of the pickled copies with an arbitrary set_par; results characterised by an iff against the loop of simulate with the solution for the sample's own parameters. The stacking of the results is C139."
  },
  {
   "property": "C145",
   "status": "partial",
   "theorems": [
    "Pydsge.C145_refuted",
    "Pydsge.C145_same_length_partial",
    "Pydsge.C145_iff"
   ],
   "note": "Refuted: zip(*sample) ends with the shortest list, so that samples are dropped without notice. With lists of equal length there is one result per sample. C145_iff is the exact condition."
  },
  {
   "property": "C146",
   "status": "proved",
   "theorems": [
    "Pydsge.C146_relaxed",
    "Pydsge.C146_tightened",
    "Pydsge.C146_simulation",
    "Pydsge.C146_low_bound",
    "Pydsge.C146_hypotheses_met",
    "Pydsge.C146_adds_less",
    "Pydsge.C146_better",
    "Pydsge.C146_transition",
    "Pydsge.C146_simulations_ordered",
    "Pydsge.C146_ordered_hypotheses_met"
   ],
   "note": "Both models are solved independently (any layout and external results); assumed: the linear solutions agree, which C140_linear_of_stable gives for determinate models. When the constraint binds (`Props/LowerBound.lean`): for models in which announced disturbances do not reverse and announced increases of the constrained variable do not raise it elsewhere, the constraint adds in every period at most as much with the lower bound, and simulations with the same shocks are ordered in every period."
  },
  {
   "property": "C147",
   "status": "proved",
   "theorems": [
    "Pydsge.C147_transition",
    "Pydsge.C147_simulation",
    "Pydsge.C147_linear_of_stable",
    "Pydsge.C147_same_tables",
    "Pydsge.C147_hypotheses_met"
   ],
   "note": "Both declarations are solved independently; the linear solutions agree if both models are stable and the declared model is determinate. With equal results of the external routines even the tables agree (C147_same_tables)."
  },
  {
   "property": "C148",
   "status": "proved",
   "theorems": [
    "Pydsge.C148_paths_solve",
    "Pydsge.C148_unique_path",
    "Pydsge.C148_characterisation",
    "Pydsge.C148_flag_zero_is_max",
    "Pydsge.C148_distance",
    "Pydsge.C148_written_around",
    "Pydsge.C148_hypotheses_met"
   ],
   "note": "Complements C23 (not as declared) and C24 (why lags of expected variables are excluded)."
  },
  {
   "property": "C149",
   "status": "proved",
   "theorems": [
    "Pydsge.C149_two_spells",
    "Pydsge.C149_end_of_spell",
    "Pydsge.C149_start_of_spell",
    "Pydsge.C149_pieces_agree",
    "Pydsge.C149_hypotheses_met"
   ],
   "note": "If l_max = 0, the second spell must not end before the first (C149_two_spells has this as alternative hypothesis). The constraint is that of the solved model (C148)."
  },
  {
   "property": "C15",
   "status": "proved",
   "theorems": [
    "Pydsge.C15_elapsed_spell_reproduces_expected_path",
    "Pydsge.C15_restart"
   ],
   "note": "Constraint without lagged forward-looking variables (C24)."
  },
  {
   "property": "C150",
   "status": "partial",
   "theorems": [
    "Pydsge.C150_saving_again_partial",
    "Pydsge.C150_saving_again_refuted",
    "Pydsge.CyclesEx.C150_hypotheses_met"
   ],
   "note": "Proved for equations, name, data and settings; refuted for the size: each load pickles the model with the pickle it was loaded from, so that the archive grows with every cycle."
  },
  {
   "property": "C151",
   "status": "partial",
   "theorems": [
    "Pydsge.C151_scattered_partial",
    "Pydsge.C151_current_partial",
    "Pydsge.C151_equal_iff",
    "Pydsge.C151_sign",
    "Pydsge.C151_zero_refuted",
    "Pydsge.C151_full_refuted",
    "Pydsge.C151_hypotheses_met",
    "Pydsge.C151_array_refuted",
    "Pydsge.C151_array_partial",
    "Pydsge.C151_best_partial",
    "Pydsge.C151_post_mean_partial",
    "Pydsge.C151_samples",
    "Pydsge.C151_samples_full",
    "Pydsge.C151_copies_hypotheses_met"
   ],
   "note": "n vectors with multiplicative noise for full=False; refuted: entries that are zero are the same in all vectors, and with full=True the number of samples is ignored. C151_array_*: the same for arrays given by the caller. Also for best and post_mean; samples of the prior and the posterior are returned as drawn (C151_samples, C151_samples_full)."
  },
  {
   "property": "C152",
   "status": "partial",
   "theorems": [
    "Pydsge.C152_named_partial",
    "Pydsge.C152_estimated_partial",
    "Pydsge.C152_samples_refuted",
    "Pydsge.C152_square_refuted",
    "Pydsge.C152_hypotheses_met",
    "Pydsge.C152_estimated_samples_refuted",
    "Pydsge.C152_no_prior_refuted",
    "Pydsge.C152_samples_hypotheses_met"
   ],
   "note": "Holds for single vectors; refuted for samples: the call raises (also for one draw), unless there are as many draws as parameters, in which case parameter i is given the whole draw i. Samples with full=False give estimated parameter i the whole sample i (`C152_estimated_samples_refuted`); without a prior full=False fails (`C152_no_prior_refuted`)."
  },
  {
   "property": "C153",
   "status": "partial",
   "theorems": [
    "Pydsge.C153_locally_lipschitz_partial",
    "Pydsge.C153_simulations_partial",
    "Pydsge.C153_continuous_refuted",
    "Pydsge.C153_hypotheses_met",
    "Pydsge.C153_from_model",
    "Pydsge.C153_simulations_from_model",
    "Pydsge.C177_from_model_hypotheses_met"
   ],
   "note": "Around every state at which all spells that pass the tests of the search agree, the transition is Lipschitz with one constant for the whole model. Refuted without this condition: with several consistent spells the search takes the first, and jumps when it comes up.  From conditions on the model instead of the state (no reversal, C173; the rule does not fall below the bound again, C193): continuous wherever no error is reported (C153_from_model, C153_simulations_from_model)."
  },
  {
   "property": "C154",
   "status": "partial",
   "theorems": [
    "Pydsge.C154_writes_harmless_partial",
    "Pydsge.C154_arrays_kept_partial",
    "Pydsge.C154_mode_refuted",
    "Pydsge.C154_init_refuted",
    "Pydsge.C154_hypotheses_met",
    "Pydsge.C154_mode_witness",
    "Pydsge.C154_set_contents",
    "Pydsge.C154_get_contents",
    "Pydsge.C154_contents_hypotheses_met"
   ],
   "note": "Proved for all sequences of calls that do not ask for a stored set (`mode`, `init`, `best` and aliases) with `full=False` and one sample. Those calls return the stored array: the two refutations show that a write into the result changes the stored mode or initial values."
  },
  {
   "property": "C155",
   "status": "partial",
   "theorems": [
    "Pydsge.C155_forward_variables",
    "Pydsge.C155_sizes_partial",
    "Pydsge.C155_other_columns_zero",
    "Pydsge.C155_expectation_errors",
    "Pydsge.C155_neq_fort_refuted",
    "Pydsge.C155_hypotheses_met"
   ],
   "note": "Everything is proved except that `neq_fort` counts measurement equations as its documentation says: it is `neq + neta`, and equals `neq + nobs` only if there are as many observables as expected variables (refuted)."
  },
  {
   "property": "C156",
   "status": "partial",
   "theorems": [
    "Pydsge.C156_outcome",
    "Pydsge.C156_every_part",
    "Pydsge.C156_order",
    "Pydsge.C156_readable_refuted",
    "Pydsge.C156_hypotheses_met"
   ],
   "note": "Everything is proved except that the print tells objects apart: an empty dictionary and an empty set look the same (refuted)."
  },
  {
   "property": "C157",
   "status": "partial",
   "theorems": [
    "Pydsge.C157_delay_partial",
    "Pydsge.C157_delay_refuted",
    "Pydsge.C157_silent",
    "Pydsge.C67_silent_met",
    "Pydsge.C157_unique",
    "Pydsge.C18_no_difference_met"
   ],
   "note": "Holds with force_init_equil=False, with linear=True, or if some shock is not in period 0; refuted for default arguments and shocks in period 0 only. C157_silent: holds if the delayed response comes without the message about multiplicities.  With force_init_equil too, where equilibria are unique and flag 0 means an equilibrium: C157_unique."
  },
  {
   "property": "C158",
   "status": "partial",
   "theorems": [
    "Pydsge.C158_lanne_nyberg_partial",
    "Pydsge.C158_computed",
    "Pydsge.C158_cumulated_refuted",
    "Pydsge.C158_average_refuted",
    "Pydsge.C158_hypotheses_met"
   ],
   "note": "Holds for horizon 1 and samples with equal totals (e.g. a single draw); refuted otherwise: only the last period enters, and ratios are not averaged."
  },
  {
   "property": "C159",
   "status": "proved",
   "theorems": [
    "Pydsge.C159_sample",
    "Pydsge.C159_linear",
    "Pydsge.C159_hypotheses_met"
   ],
   "note": ""
  },
  {
   "property": "C16",
   "status": "proved",
   "theorems": [
    "Pydsge.C16_imposed_spell_elapses"
   ],
   "note": "Non-negative pairs, positive integers and True; default force_init_equil."
  },
  {
   "property": "C160",
   "status": "proved",
   "theorems": [
    "Pydsge.C160_least_squares",
    "Pydsge.C160_roundtrip",
    "Pydsge.C160_same_effect",
    "Pydsge.C160_hypotheses_met"
   ],
   "note": "numpy.linalg.pinv by contract (Moore-Penrose conditions, no cutoff, no rounding); the smoothed states are an input, so the filter itself is not part of the statement."
  },
  {
   "property": "C161",
   "status": "partial",
   "theorems": [
    "Pydsge.C161_unique",
    "Pydsge.C161_reported_partial",
    "Pydsge.C161_reported_refuted",
    "Pydsge.C161_reversal",
    "Pydsge.C161_hypotheses_met",
    "Pydsge.C173_reported_partial",
    "Pydsge.C173_unique"
   ],
   "note": "False in general: there is a model with a unique stable linear solution in which, at the steady state, the constraint may also bind because it is expected to bind; t_func reports the spell that is tried first. Proved under the condition that announced disturbances of the constraint equation do not move the constrained variable against their own direction in all periods (the P-matrix property), for spells of any number and length."
  },
  {
   "property": "C162",
   "status": "partial",
   "theorems": [
    "Pydsge.C162_all_shown",
    "Pydsge.C162_failures",
    "Pydsge.C162_width_partial",
    "Pydsge.C162_width_refuted",
    "Pydsge.C162_unequal",
    "Pydsge.C162_hypotheses_met",
    "Pydsge.C162_width_exact"
   ],
   "note": "The table is complete and in order. Rows can be up to seven characters wider than the terminal (the empty field at the start of a row is subtracted from the width, but the division is rounded the wrong way): four parameters on 20 columns give a row of 24; they fit if the width is a multiple of eight. Values without a name are silently left out. With at most eight columns the report fails."
  },
  {
   "property": "C163",
   "status": "proved",
   "theorems": [
    "Pydsge.C163_found",
    "Pydsge.C163_flagged",
    "Pydsge.C163_hypotheses_met",
    "Pydsge.C173_found",
    "Pydsge.C173_flagged",
    "Pydsge.C163_exact",
    "Pydsge.C163_state",
    "Pydsge.C163_larger",
    "Pydsge.C163_exact_hypotheses_met",
    "Pydsge.C163_errors_open",
    "Pydsge.C163_errors_open_met"
   ],
   "note": "an equilibrium is stated with max in all periods; the converse (flag 0 implies an equilibrium) fails, see C67 and C116  Exact condition (also with lags in the constraint): C163_exact; the reported state with unique equilibria: C163_state; errors do not appear when tables grow: C163_larger.  C163_errors_open: errors are not isolated (the states and shocks without an error are a closed set), under the condition StaysAbove of C193."
  },
  {
   "property": "C164",
   "status": "proved",
   "theorems": [
    "Pydsge.C164_no_variable_lost",
    "Pydsge.C164_hx_only",
    "Pydsge.C164_hypotheses_met"
   ],
   "note": "with get_hx_only the check is not reached and vv lacks the variables that are not used (C164_hx_only)"
  },
  {
   "property": "C165",
   "status": "partial",
   "theorems": [
    "Pydsge.C165_messages_partial",
    "Pydsge.C165_dict_refuted",
    "Pydsge.C165_hypotheses_met",
    "Pydsge.C165_dict_exact"
   ],
   "note": "holds for models from files; a model from a dictionary has no attribute `variables`, and verbose=2 raises AttributeError if some variable has a lead or a lag C165_dict_exact: the exact condition for models from dictionaries."
  },
  {
   "property": "C166",
   "status": "partial",
   "theorems": [
    "Pydsge.C166_info_partial",
    "Pydsge.C166_no_chain_partial",
    "Pydsge.C166_not_estimated_refuted",
    "Pydsge.C166_prepares_refuted",
    "Pydsge.C166_hypotheses_met",
    "Pydsge.C166_prepared_text",
    "Pydsge.C166_text_iff",
    "Pydsge.C166_unchanged_iff"
   ],
   "note": "right for models with an estimation in memory; NameError for models that have not been estimated (get_chain raises NameError, info catches only AttributeError and KeyError); for loaded models info runs prep_estim and so changes the model The exact condition (or the whole outcome) is proved as well."
  },
  {
   "property": "C167",
   "status": "proved",
   "theorems": [
    "Pydsge.C167_report",
    "Pydsge.C167_verbosity",
    "Pydsge.C167_calls",
    "Pydsge.C167_hypotheses_met",
    "Pydsge.C167_report_fails"
   ],
   "note": "for models after prep_estim, whose current parameters have full length"
  },
  {
   "property": "C168",
   "status": "proved",
   "theorems": [
    "Pydsge.C168_transition_bounded",
    "Pydsge.C168_simulations_bounded",
    "Pydsge.C168_hypotheses_met"
   ],
   "note": "needs k_max >= 1; over an infinite horizon simulations can be unbounded (C132_irfs_return_refuted)"
  },
  {
   "property": "C169",
   "status": "partial",
   "theorems": [
    "Pydsge.C169_orderly_partial",
    "Pydsge.C169_prepared_partial",
    "Pydsge.C169_stale_refuted",
    "Pydsge.C169_lost_refuted",
    "Pydsge.C169_hypotheses_met",
    "Pydsge.C169_failed_refuted",
    "Pydsge.C169_first_use"
   ],
   "note": "Holds if all changes come before the first preparation and the model is not saved and loaded after a change; holds right after a run of prep_estim. Refuted otherwise: a change after prep_estim reaches the means only, and no change survives save and load (fdict keeps the changed prior, mod.prior is the one of the file). After a preparation that failed because of the prior, mcmc does not prepare again (C169_failed_refuted). C169_first_use: after reading or loading and any changes, the first preparation by any method uses the changed prior."
  },
  {
   "property": "C17",
   "status": "proved",
   "theorems": [
    "Pydsge.C17_irfs_many",
    "Pydsge.C17_irfs_permuted"
   ],
   "note": "dill round trip gives an independent copy (contract); self.debug and self.pool are set before pickling and are not part of the claim."
  },
  {
   "property": "C170",
   "status": "partial",
   "theorems": [
    "Pydsge.C170_numbers",
    "Pydsge.C170_transition_partial",
    "Pydsge.C170_simulations_partial",
    "Pydsge.C170_after_shock_partial",
    "Pydsge.C170_observables",
    "Pydsge.C170_flag_refuted",
    "Pydsge.C170_hypotheses_met",
    "Pydsge.C170_numbers_simulate",
    "Pydsge.C170_numbers_observables"
   ],
   "note": "Values: proved, NaN spreads to all entries and never turns into a number. Flag: refuted for every solved model; the search returns (0,1) with flag 0."
  },
  {
   "property": "C171",
   "status": "proved",
   "theorems": [
    "Pydsge.C171_solved_iff",
    "Pydsge.C171_solved_iff_general",
    "Pydsge.C171_otherwise",
    "Pydsge.C171_fewer",
    "Pydsge.C171_decomposition_irrelevant",
    "Pydsge.C171_example",
    "Pydsge.C171_linear_use_fails",
    "Pydsge.C171_contract_satisfiable"
   ],
   "note": "For k_max = 0 the condition that a period determines its controls in both regimes is separate: a model with a unique linear solution fails if the binding regime leaves a control undetermined (C171_linear_use_fails)."
  },
  {
   "property": "C172",
   "status": "proved",
   "theorems": [
    "Pydsge.C172_bound",
    "Pydsge.C172_simulation",
    "Pydsge.C172_close_to_max",
    "Pydsge.C172_same_equilibrium",
    "Pydsge.C172_example",
    "Pydsge.C172_close_to_max_general"
   ],
   "note": "The tables are arbitrary apart from their distance to the exact ones; how large d is for a given machine is not modelled."
  },
  {
   "property": "C173",
   "status": "proved",
   "theorems": [
    "Pydsge.C173_flag_iff",
    "Pydsge.C173_found",
    "Pydsge.C173_flagged",
    "Pydsge.C173_unique",
    "Pydsge.C173_hypotheses_met",
    "Pydsge.C173_flagged_hypotheses_met"
   ],
   "note": "About the model that is solved (Spec.asSolved, C148), which is the declared one if the constraint has no lags and not both shocks and the constrained variable. The value of the constraint is the one that satisfies its equation given all other variables; for an own coefficient below one equilibria are the same as in C161 (ruleEquilibrium_iff)."
  },
  {
   "property": "C174",
   "status": "proved",
   "theorems": [
    "Pydsge.C174_one_path",
    "Pydsge.C174_as_announced",
    "Pydsge.C174_returns",
    "Pydsge.C174_hypotheses_met",
    "Pydsge.C174_no_later_error",
    "Pydsge.C174_from_impact",
    "Pydsge.C132_irfs_return_from_impact",
    "Pydsge.C174_from_impact_hypotheses_met"
   ],
   "note": "Complements C116, where rival spells are excluded instead. The example is a response with a spell of two periods in a model with a lag in the constraint, for all table sizes.  From conditions at impact only: C174_no_later_error (needs FlagMeansEquilibrium, not uniqueness), C174_from_impact, and the return to the steady state C132_irfs_return_from_impact; case Ex17 with six binding periods."
  },
  {
   "property": "C175",
   "status": "partial",
   "theorems": [
    "Pydsge.C175_reported_iff",
    "Pydsge.C175_silent",
    "Pydsge.C175_flag_iff",
    "Pydsge.C175_two_equilibria_partial",
    "Pydsge.C175_no_false_alarm_partial",
    "Pydsge.C175_hypotheses_met",
    "Pydsge.C175_true_report",
    "Pydsge.C175_false_alarm_refuted",
    "Pydsge.C175_silence_refuted",
    "Pydsge.C175_failure_unreported",
    "Pydsge.C175_unique_silent",
    "Pydsge.C175_unique_silent_met",
    "Pydsge.C175_edge_refuted"
   ],
   "note": "Proved for all inputs: the report is made iff the spell found by the search differs from the continued one in a period without a shock; without a report the states and spells are those without force_init_equil; an error flag is returned iff the search failed in a period with a shock. After a shock whose reported path is an equilibrium the continued spell is one too, and it differs from the newly found path iff there is a report (values exactly at the bound excluded); if equilibria are unique there is no false alarm. Refuted in general: a false alarm before the first shock from a state below the bound (C175_false_alarm_refuted), silence with two equilibria (C175_silence_refuted), and a failed search in a period without a shock which is not reported (C175_failure_unreported).  For whole responses: where equilibria are unique and flag 0 means an equilibrium, a response without an error in which the rule never equals the bound exactly in periods without a shock is never reported, has no flag, and has the same states and spells with force_init_equil (C175_unique_silent; case Ex17 with a shock in period 1, any horizon).  That condition is needed: at the bound exactly the search, whose first test is strict, gives (0,1) where (0,0) is continued, and irfs reports multiple equilibria although there is one path only (C175_edge_refuted)."
  },
  {
   "property": "C176",
   "status": "proved",
   "theorems": [
    "Pydsge.C176_accepted_iff",
    "Pydsge.C176_order_values",
    "Pydsge.C176_reordered",
    "Pydsge.C176_doublets",
    "Pydsge.C176_constraint_dates"
   ],
   "note": "Necessary and sufficient condition on the text of the file (Spec.Accepted, Spec.Added), independent of the stages of the parser. Shocks are distinct as they are keys of the mapping `covariances`. Consequences: independence of parameter values, dictionary order and order of declarations; doublets are accepted only beside equations without symbols; dates allowed in equations but not in the constraint."
  },
  {
   "property": "C177",
   "status": "proved",
   "theorems": [
    "Pydsge.C177_lipschitz",
    "Pydsge.C177_simulations",
    "Pydsge.C177_unique_determined",
    "Pydsge.C177_hypotheses_met",
    "Pydsge.C177_unique_hypotheses_met",
    "Pydsge.C177_always_determined",
    "Pydsge.C177_from_model",
    "Pydsge.C177_from_model_hypotheses_met"
   ],
   "note": "Global version of C153: one Lipschitz constant for all regular segments, from one region of the piecewise affine transition to the other. Works over every ordered field (the regions along a segment are intervals whose end points are in the field). Without regularity the transition can jump (C153_continuous_refuted).  From conditions on the model: C177_from_model; in Ex17 the points without an error are exactly a half space, on which the transition function is Lipschitz, for tables of every size."
  },
  {
   "property": "C178",
   "status": "proved",
   "theorems": [
    "Pydsge.Spec.withoutNames_writtenOut",
    "Pydsge.C178_paths",
    "Pydsge.C178_transition",
    "Pydsge.C178_simulation",
    "Pydsge.C178_linear_of_stable",
    "Pydsge.C178_hypotheses_met",
    "Pydsge.C178_written_out"
   ],
   "note": "Differs from C140: here the equations of the core mention the added variables. Spec.WithoutNames is the relation between the two files; Spec.withoutNames_writtenOut shows it for writing the combinations out. Agreement of the linear solutions is a hypothesis, derived in C178_linear_of_stable if both return to the steady state and the model without names is determinate. The coefficient of the constrained variable in its own constraint has to be the same in both files, and lags of expected variables in the constraint are excluded (C24, C148)."
  },
  {
   "property": "C179",
   "status": "partial",
   "theorems": [
    "Pydsge.C179_imposed_partial",
    "Pydsge.C179_outcome",
    "Pydsge.C179_belongs_partial",
    "Pydsge.C179_imposed_refuted"
   ],
   "note": "Holds for durations that are not negative and fit the tables. C179_outcome says what happens for every pair of integers: k = -1 means a search and l is ignored; other negative numbers down to minus the length of the tables count from the end, the negative numbers are reported with flag 0; what is outside is read from memory outside the tables (oob). Refuted: set_k=(0,-2) at the steady state of the example puts the constrained variable at its bound."
  },
  {
   "property": "C18",
   "status": "partial",
   "theorems": [
    "Pydsge.C18_spell_continued_partial",
    "Pydsge.C18_spell_continued_refuted",
    "Pydsge.C18_ignored",
    "Pydsge.C18_no_difference",
    "Pydsge.C18_no_difference_met"
   ],
   "note": "Refuted when all shocks are in period 0; proved when some shock has another period. C18_ignored: without a shock outside period 0 the argument has no effect.  Where equilibria are unique (no reversal) and flag 0 means an equilibrium, force_init_equil makes no difference: a response without an error to shocks of any dates has the same states with and without it (C18_no_difference; case Ex17 with two shocks of different dates, any horizon)."
  },
  {
   "property": "C180",
   "status": "partial",
   "theorems": [
    "Pydsge.C180_outcome",
    "Pydsge.C180_iff",
    "Pydsge.C180_current_partial",
    "Pydsge.C180_scale",
    "Pydsge.C180_refuted"
   ],
   "note": "C180_outcome: value and writes for every fitting argument, with or without a solution; C180_iff: the current parameters stay exactly if the parameters meant are the current ones; C180_current_partial: without an argument nothing changes and the filter has the square of the matrix; C180_scale: the two agree iff all entries are 0 or 1, since the section holds standard deviations. Refuted: get_cov(npar) makes npar the current parameters, also if it raises, and the filter keeps the old covariance."
  },
  {
   "property": "C181",
   "status": "partial",
   "theorems": [
    "Pydsge.C181_exists_unique",
    "Pydsge.C181_equilibrium_iff",
    "Pydsge.C181_horizon",
    "Pydsge.C181_tables_of_any_size",
    "Pydsge.C181_flagged",
    "Pydsge.C181_hypotheses_met",
    "Pydsge.C181_flagged_hypotheses_met",
    "Pydsge.C181_refuted"
   ],
   "note": "Proved under the condition that announced disturbances of the constraint equation do not move the constrained variable against their own direction in all periods (NoReversalOf, as in C161 and C173). Refuted without it: a model with two such equilibria at the steady state, and none after a shock. Missing: for the equilibrium to hold in all periods its linear part has to stay above the bound (C181_equilibrium_iff), which is not shown from stability."
  },
  {
   "property": "C182",
   "status": "proved",
   "theorems": [
    "Pydsge.C182_named",
    "Pydsge.C182_unused",
    "Pydsge.C182_parafunc",
    "Pydsge.C182_observables",
    "Pydsge.C182_states",
    "Pydsge.C182_input",
    "Pydsge.C182_xbar",
    "Pydsge.C182_hypotheses_met",
    "Pydsge.C182_covariances",
    "Pydsge.C182_covariances_hypotheses_met"
   ],
   "note": "The exception by design is x_bar, which gensys.py:126-139 looks up by its name (C182_input fixes its value, C182_xbar says which of the two entries counts). Expressions are the trees of Model/Resolve.lean. Certainty equivalence at the level of set_par: other covariances change filter.Q only (C182_covariances)."
  },
  {
   "property": "C183",
   "status": "proved",
   "theorems": [
    "Pydsge.C183_transition",
    "Pydsge.C183_simulation",
    "Pydsge.C183_irfs",
    "Pydsge.C183_one_path",
    "Pydsge.C183_same_process",
    "Pydsge.C183_hypotheses_met",
    "Pydsge.C183_autoregressive"
   ],
   "note": "For models whose tables are computed (Succeeded), with k_max >= 1, where the constraint has no lag of a variable that is expected elsewhere and does not have the constrained variable with coefficient one on its right hand side (the conditions of C148)."
  },
  {
   "property": "C184",
   "status": "proved",
   "theorems": [
    "Pydsge.C184_same_path",
    "Pydsge.C184_same_transition",
    "Pydsge.C184_stable",
    "Pydsge.C184_simulation",
    "Pydsge.C184_hypotheses_met",
    "Pydsge.C184_recovered",
    "Pydsge.C184_shocks_identified",
    "Pydsge.C184_bound_path",
    "Pydsge.C184_bound_transition"
   ],
   "note": "Contributions to the constraint are those of the model that is solved (Spec.asSolved, C148). Determinacy is needed, since Klein's method is only assumed to return a solution."
  },
  {
   "property": "C185",
   "status": "proved",
   "theorems": [
    "Pydsge.C185_positive_iff",
    "Pydsge.C185_not_moved",
    "Pydsge.C185_zero_share",
    "Pydsge.C185_hypotheses_met"
   ],
   "note": "Exact arithmetic: with rounding the two paths could differ in the last digits. Processes as in C183."
  },
  {
   "property": "C186",
   "status": "proved",
   "theorems": [
    "Pydsge.C186_difference",
    "Pydsge.C186_lowers",
    "Pydsge.C186_raises",
    "Pydsge.C186_transition",
    "Pydsge.C186_irfs",
    "Pydsge.C186_irfs_announced",
    "Pydsge.C186_irfs_hypotheses_met",
    "Pydsge.C186_hypotheses_met",
    "Pydsge.C186_lowers_iff",
    "Pydsge.C186_raises_iff",
    "Pydsge.C186_iff_hypotheses_met"
   ],
   "note": "Exact arithmetic. For spells of more than two periods the periods in between are not tested by the code (C04, C173), so that the constraint genuinely binds there is a hypothesis."
  },
  {
   "property": "C187",
   "status": "proved",
   "theorems": [
    "Pydsge.C187_simulate",
    "Pydsge.C187_irfs",
    "Pydsge.C187_hypotheses_met",
    "Pydsge.C187_asymmetry"
   ],
   "note": "Exact arithmetic. The conditions are on the linear model, except that spells of more than two periods must bind in the periods that the code does not test."
  },
  {
   "property": "C188",
   "status": "proved",
   "theorems": [
    "Pydsge.C188_harder",
    "Pydsge.C188_order",
    "Pydsge.C188_binds",
    "Pydsge.C188_elsewhere_iff",
    "Pydsge.C188_transition",
    "Pydsge.C188_simulate",
    "Pydsge.C188_irfs",
    "Pydsge.C188_hypotheses_met"
   ],
   "note": "Exact arithmetic. For transitions, simulations and impulse responses what is reported without an error must be an equilibrium in all periods (the search tests five); this is proved for all states and shocks of the example."
  },
  {
   "property": "C189",
   "status": "proved",
   "theorems": [
    "Pydsge.C189_least",
    "Pydsge.C189_lift",
    "Pydsge.C189_order",
    "Pydsge.C189_scale",
    "Pydsge.C189_transition",
    "Pydsge.C189_simulate",
    "Pydsge.C189_hypotheses_met",
    "Pydsge.C189_larger_transition",
    "Pydsge.C189_larger_simulate",
    "Pydsge.C189_larger_irfs",
    "Pydsge.C189_larger_hypotheses_met"
   ],
   "note": "Exact arithmetic. For transitions and simulations what is reported without an error must be an equilibrium in all periods (the search tests five); this is proved for all states and shocks of the example. Larger shocks (`Props/Larger.lean`): with `c >= 1` times the shocks, transitions, simulations and impulse responses are at most as good as `c` times those with the shocks."
  },
  {
   "property": "C19",
   "status": "proved",
   "theorems": [
    "Pydsge.C19_simulate_iterates",
    "Pydsge.C19_simulate_complete",
    "Pydsge.C19_simulate_split",
    "Pydsge.C19_mask",
    "Pydsge.C19_mask_rows"
   ],
   "note": "A mask with another number of rows than the residuals is covered by C19_mask_rows."
  },
  {
   "property": "C190",
   "status": "proved",
   "theorems": [
    "Pydsge.C190_adds_less",
    "Pydsge.C190_never_worse",
    "Pydsge.C190_longer_adds_less",
    "Pydsge.C190_longer",
    "Pydsge.C190_transition",
    "Pydsge.C190_irfs",
    "Pydsge.C190_hypotheses_met",
    "Pydsge.C190_reversal_refuted"
   ],
   "note": "Exact arithmetic. For transitions and impulse responses what is reported without an error must be an equilibrium in all periods (the search tests five); this is proved for all states and shocks of the example.  Without the condition that announced disturbances do not reverse the claim fails (`C190_reversal_refuted`): in the model of Ex10 an imposed spell of one period lowers `y` from the steady state to -4/3."
  },
  {
   "property": "C191",
   "status": "proved",
   "theorems": [
    "Pydsge.C191_no_reversal",
    "Pydsge.C191_iff",
    "Pydsge.C191_sums",
    "Pydsge.C191_hypotheses_met",
    "Pydsge.C191_dominant",
    "Pydsge.C191_dominant_hypotheses_met"
   ],
   "note": "Exact arithmetic. The criterion is about the solved model (C148); the reduction is that of M-matrices (`Lemmas/MMatrix.lean`).  `C191_dominant` needs no condition on signs: a diagonal that dominates its rows, with some positive weights, is enough."
  },
  {
   "property": "C192",
   "status": "proved",
   "theorems": [
    "Pydsge.C192_last_binds",
    "Pydsge.C192_constrained",
    "Pydsge.C192_transition",
    "Pydsge.C192_ordered",
    "Pydsge.C192_simulate",
    "Pydsge.C192_irfs",
    "Pydsge.C192_bound_constrained",
    "Pydsge.C192_bound",
    "Pydsge.C192_hypotheses_met"
   ],
   "note": "Exact arithmetic. The constraint is that of the solved model (C148). Spells of one period in which the rule gives exactly the bound are excluded: there the reported spell depends on ties."
  },
  {
   "property": "C193",
   "status": "partial",
   "theorems": [
    "Pydsge.C193_exact",
    "Pydsge.C193_short_partial",
    "Pydsge.C193_small_tables",
    "Pydsge.C193_stays_above",
    "Pydsge.C193_refuted",
    "Pydsge.C193_hypotheses_met",
    "Pydsge.C193_first_step",
    "Pydsge.C193_checked"
   ],
   "note": "Violated in general: in an oscillating model (Ex5), for tables of every size, a spell is reported without an error although the constrained variable is below the bound in a later expected period (C193_refuted). Proved: the exact condition (C193_exact); spells with l, k <= 2, and all tables with l_max, k_max <= 2, if the rule stays above the bound on linear paths once it is there; tables of every size if the rule does not fall below the bound again on expected paths. Exact arithmetic.  The condition need only be checked between the first two periods of each spell (C193_first_step)."
  },
  {
   "property": "C194",
   "status": "partial",
   "theorems": [
    "Pydsge.C194_order_partial",
    "Pydsge.C194_order_refuted",
    "Pydsge.C194_hypotheses_met",
    "Pydsge.C137_first_largest"
   ],
   "note": "Holds if no two shares are equal, for rows and columns at once and also for the exception; refuted with equal shares: argmax takes the first one, and a model with two observables has 8/25 in one order and 11/50 in the other."
  },
  {
   "property": "C195",
   "status": "partial",
   "theorems": [
    "Pydsge.C195_no_leads_partial",
    "Pydsge.C195_iff",
    "Pydsge.C195_no_leads_refuted",
    "Pydsge.C195_hypotheses_met",
    "Pydsge.C195_lags_iff",
    "Pydsge.C195_lags_refuted"
   ],
   "note": "parser.py:863 takes the absolute value of the largest date, so a variable that occurs only with lags of two or more periods (the constraint does not count) gets lead variables, defined by its lead of one period. C195_iff is the exact condition; y = y(-1) - r(-2) + e with r in the constraint is a counterexample.  The same for lags, with the smallest date (parser.py:847): C195_lags_iff, C195_lags_refuted (y = y(1) - r(2) + e gets r_LAG1 = r(-1))."
  },
  {
   "property": "C20",
   "status": "proved",
   "theorems": [
    "Pydsge.C20_observables_agree"
   ],
   "note": ""
  },
  {
   "property": "C21",
   "status": "partial",
   "theorems": [
    "Pydsge.C21_observables_partial",
    "Pydsge.C21_observables_refuted",
    "Pydsge.C21_accepted_iff",
    "Pydsge.C21_lags_lost",
    "Pydsge.C21_acceptance_examples"
   ],
   "note": "Holds for measurement equations in current variables that are polynomial in each symbol and affine as functions; refuted for lags of variables, which are accepted and dropped. Which measurement equations are accepted is characterised (`C21_accepted_iff`), and for all linear ones that are accepted, what is missing is exactly the lagged part (`C21_lags_lost`)."
  },
  {
   "property": "C22",
   "status": "partial",
   "theorems": [
    "Pydsge.C22_intervals_ordered_partial",
    "Pydsge.C22_intervals_ordered_refuted",
    "Pydsge.C22_intervals_ordered_iff"
   ],
   "note": "Refuted for negative loadings. Exactly: an observable has ordered intervals for all standard deviations iff it has no negative loading."
  },
  {
   "property": "C23",
   "status": "partial",
   "theorems": [
    "Pydsge.C23_constraint_as_declared_partial",
    "Pydsge.C23_constraint_as_declared_refuted",
    "Pydsge.C23_shock_scaling_refuted",
    "Pydsge.C23_iff"
   ],
   "note": "Holds without lags in the constraint (and without shocks when the constrained variable is on its own right hand side); lags enter with flipped sign, shocks unscaled. C23_iff is the exact condition."
  },
  {
   "property": "C24",
   "status": "partial",
   "theorems": [
    "Pydsge.C24_no_forward_term_lost_partial",
    "Pydsge.C24_no_forward_term_lost_refuted",
    "Pydsge.C24_iff"
   ],
   "note": "Fails for forward-looking variables whose lag is in the constraint. C24_iff is the exact condition."
  },
  {
   "property": "C25",
   "status": "proved",
   "theorems": [
    "Pydsge.C25_auxiliary_variables"
   ],
   "note": ""
  },
  {
   "property": "C26",
   "status": "partial",
   "theorems": [
    "Pydsge.C26_positions",
    "Pydsge.C26_names_once_partial",
    "Pydsge.C26_names_once_refuted",
    "Pydsge.C26_iff"
   ],
   "note": "Positions are proved in full; names clash with a declared variable called <name>_lag. C26_iff is the exact condition."
  },
  {
   "property": "C27",
   "status": "proved",
   "theorems": [
    "Pydsge.C27_bounds_are_sticky",
    "Pydsge.C27_table_size"
   ],
   "note": ""
  },
  {
   "property": "C28",
   "status": "proved",
   "theorems": [
    "Pydsge.C28_x_bar"
   ],
   "note": ""
  },
  {
   "property": "C29",
   "status": "partial",
   "theorems": [
    "Pydsge.C29_failed_set_par_partial",
    "Pydsge.C29_failed_set_par_refuted",
    "Pydsge.C29_failed_value",
    "Pydsge.C29_failed_iff"
   ],
   "note": "Only the precomputed tables survive a failure; par, ppar, x_bar, vv, lks, hx and possibly sys are already replaced. C29_failed_iff: exact condition for single parameters."
  },
  {
   "property": "C30",
   "status": "proved",
   "theorems": [
    "Pydsge.C30_round_trip",
    "Pydsge.C30_succeeds"
   ],
   "note": ""
  },
  {
   "property": "C31",
   "status": "proved",
   "theorems": [
    "Pydsge.C31_vectors"
   ],
   "note": ""
  },
  {
   "property": "C32",
   "status": "partial",
   "theorems": [
    "Pydsge.C32_npar_partial",
    "Pydsge.C32_npar_refuted",
    "Pydsge.C32_outcome",
    "Pydsge.C32_full_iff",
    "Pydsge.C32_outcome_examples"
   ],
   "note": "Fails when all parameters are estimated in another order, or without priors. C32_outcome lists all outcomes, C32_full_iff is the exact condition for full vectors."
  },
  {
   "property": "C33",
   "status": "partial",
   "theorems": [
    "Pydsge.C33_named_set_partial",
    "Pydsge.C33_named_set_refuted",
    "Pydsge.C33_iff",
    "Pydsge.C33_no_prior"
   ],
   "note": "Fails when the length of the name equals the number of parameters or of estimated parameters, or without priors. C33_iff is the exact condition."
  },
  {
   "property": "C34",
   "status": "partial",
   "theorems": [
    "Pydsge.C34_get_par_only_reads_partial",
    "Pydsge.C34_get_par_only_reads_refuted",
    "Pydsge.C34_iff",
    "Pydsge.C34_resets"
   ],
   "note": "Named sets reset the current parameters to the calibration. C34_iff is the exact condition."
  },
  {
   "property": "C35",
   "status": "partial",
   "theorems": [
    "Pydsge.C35_box_check_partial",
    "Pydsge.C35_box_check_refuted",
    "Pydsge.C35_iff",
    "Pydsge.C35_default_outcome"
   ],
   "note": "The default argument is read by prior position. C35_iff is the exact condition."
  },
  {
   "property": "C36",
   "status": "proved",
   "theorems": [
    "Pydsge.C36_lags_exact",
    "Pydsge.C36_lag_variables",
    "Pydsge.C36_first_order",
    "Pydsge.C36_accepted",
    "Pydsge.C37_leads_cut",
    "Pydsge.C37_added_variables"
   ],
   "note": "Equations as expression trees; leads of at most two periods as hypothesis (C37). The order in which sympy substitutes is arbitrary.  C37_leads_cut and C37_added_variables drop the condition on the leads."
  },
  {
   "property": "C37",
   "status": "partial",
   "theorems": [
    "Pydsge.C37_leads_exact_partial",
    "Pydsge.C37_leads_exact_refuted",
    "Pydsge.C37_leads_cut",
    "Pydsge.C37_exact_iff",
    "Pydsge.C37_leads_cut_met",
    "Pydsge.C37_added_variables",
    "Pydsge.C37_periodic",
    "Pydsge.C37_steady_states",
    "Pydsge.C37_steady_states_met"
   ],
   "note": "Holds for leads of at most two periods; y = x + x(3) is parsed as y = x + x(2).  For leads of any length: the parsed system has exactly the solutions of the declared one with every lead of more than two periods replaced by the lead of two periods (C37_leads_cut); so parsing is exact iff this replacement does not change the solutions (C37_exact_iff).  C37_added_variables: what each added variable equals, for leads and lags of any length; every lead variable is the lead of one period.  Steady states are the same whatever the leads (C37_steady_states)."
  },
  {
   "property": "C38",
   "status": "proved",
   "theorems": [
    "Pydsge.C38_lagged_shocks_exact",
    "Pydsge.C37_leads_cut",
    "Pydsge.C37_added_variables"
   ],
   "note": "  Without the condition on the leads: C37_leads_cut, C37_added_variables."
  },
  {
   "property": "C39",
   "status": "proved",
   "theorems": [
    "Pydsge.C39_matrices_reproduce",
    "Pydsge.C39_constraint_row"
   ],
   "note": "Equations that are affine functions without constant and syntactically polynomial in every symbol; C74 covers constants."
  },
  {
   "property": "C40",
   "status": "partial",
   "theorems": [
    "Pydsge.C40_terminates",
    "Pydsge.C40_accepted_partial",
    "Pydsge.C40_values_partial",
    "Pydsge.C40_order_partial",
    "Pydsge.C40_order_refuted"
   ],
   "note": "Termination in full. Acceptance, values and order for entries whose names are not those of parameters, functions or builtins; otherwise the order matters (refuted)."
  },
  {
   "property": "C41",
   "status": "partial",
   "theorems": [
    "Pydsge.C41_measurement_errors_partial",
    "Pydsge.C41_covariance_partial",
    "Pydsge.C41_offdiagonal_rejected",
    "Pydsge.C41_covariance_refuted",
    "Pydsge.C41_measurement_errors_refuted"
   ],
   "note": "Diagonal covariances and measurement errors given as text are right. No model with an off-diagonal covariance is accepted; measurement errors given as numbers raise."
  },
  {
   "property": "C42",
   "status": "partial",
   "theorems": [
    "Pydsge.C42_read_partial",
    "Pydsge.C42_functions_refuted",
    "Pydsge.C42_path_refuted",
    "Pydsge.C42_functions_file"
   ],
   "note": "The model text is always the present one; a removed functions file and the directory of a copied file go unnoticed."
  },
  {
   "property": "C43",
   "status": "partial",
   "theorems": [
    "Pydsge.C43_transparent_partial",
    "Pydsge.C43_cached",
    "Pydsge.C43_transparent_refuted",
    "Pydsge.C43_transparent_iff",
    "Pydsge.C43_iff_hypotheses_met"
   ],
   "note": "For functions that respect Python's equality of arguments, and hashable arguments. The exact condition (or the whole outcome) is proved as well."
  },
  {
   "property": "C44",
   "status": "proved",
   "theorems": [
    "Pydsge.C44_generator",
    "Pydsge.C44_generator_sequence",
    "Pydsge.C44_history",
    "Pydsge.C44_state"
   ],
   "note": "The filter run is a function of the solution, the covariance set by llike and the generator state; data do not change. Interrupted calls excluded from the generator claim only."
  },
  {
   "property": "C45",
   "status": "proved",
   "theorems": [
    "Pydsge.C45_prior",
    "Pydsge.C45_zero",
    "Pydsge.C45_value",
    "Pydsge.C45_failure",
    "Pydsge.C45_total"
   ],
   "note": "Non-negative temperatures; lprior and bptrans do not raise; extended numbers with exact finite arithmetic."
  },
  {
   "property": "C46",
   "status": "proved",
   "theorems": [
    "Pydsge.C46_mode"
   ],
   "note": "Positive tune; log probabilities without NaN (emcee rejects NaN); chain and log probabilities of the same shape."
  },
  {
   "property": "C47",
   "status": "partial",
   "theorems": [
    "Pydsge.C47_explicit_partial",
    "Pydsge.C47_default_refuted",
    "Pydsge.C47_completes_iff",
    "Pydsge.C47_iff_hypotheses_met"
   ],
   "note": "Refuted for the default tune=None (TypeError after sampling); proved for explicit positive tune. The exact condition (or the whole outcome) is proved as well."
  },
  {
   "property": "C48",
   "status": "partial",
   "theorems": [
    "Pydsge.C48_resume",
    "Pydsge.C48_missing_partial",
    "Pydsge.C48_missing_refuted",
    "Pydsge.C48_missing_files"
   ],
   "note": "resume/append proved; refuted for calls without nwalks and p0 (default file is deleted, then TypeError). The exact condition (or the whole outcome) is proved as well."
  },
  {
   "property": "C49",
   "status": "partial",
   "theorems": [
    "Pydsge.C49_usable_partial",
    "Pydsge.C49_usable_refuted",
    "Pydsge.C49_usable_iff",
    "Pydsge.C49_reason",
    "Pydsge.C49_iff_hypotheses_met"
   ],
   "note": "Refuted after prep_estim(debug=True) or ncores=0 (pool is None); proved for sequences that never set it to None. The exact condition (or the whole outcome) is proved as well."
  },
  {
   "property": "C50",
   "status": "proved",
   "theorems": [
    "Pydsge.C50_resolution",
    "Pydsge.C50_persist",
    "Pydsge.C50_bounds"
   ],
   "note": ""
  },
  {
   "property": "C51",
   "status": "partial",
   "theorems": [
    "Pydsge.C51_matrices",
    "Pydsge.C51_repeat_partial",
    "Pydsge.C51_repeat_refuted",
    "Pydsge.C51_repeat_iff"
   ],
   "note": "Matrices proved; repetition proved if the numbers of shocks and variables differ, refuted (model Ex2) if they agree. The exact condition (or the whole outcome) is proved as well."
  },
  {
   "property": "C52",
   "status": "proved",
   "theorems": [
    "Pydsge.C52_kalman",
    "Pydsge.C52_ensemble",
    "Pydsge.C52_reduced"
   ],
   "note": "Contract: solve_discrete_lyapunov returns a solution."
  },
  {
   "property": "C53",
   "status": "proved",
   "theorems": [
    "Pydsge.C53_reproduces",
    "Pydsge.C53_attains"
   ],
   "note": "Contract: pinv inverts on the range (no singular value below rcond)."
  },
  {
   "property": "C54",
   "status": "proved",
   "theorems": [
    "Pydsge.C54_validation"
   ],
   "note": "For filters that do not raise themselves."
  },
  {
   "property": "C55",
   "status": "partial",
   "theorems": [
    "Pydsge.C55_sound_partial",
    "Pydsge.C55_retry_refuted",
    "Pydsge.C55_same_seed",
    "Pydsge.C55_outcome"
   ],
   "note": "Refuted: every attempt uses the same seed. The exact condition (or the whole outcome) is proved as well."
  },
  {
   "property": "C56",
   "status": "proved",
   "theorems": [
    "Pydsge.C56_shares"
   ],
   "note": "Entries of variables that no shock moves are NaN, as the property allows."
  },
  {
   "property": "C57",
   "status": "partial",
   "theorems": [
    "Pydsge.C57_sample_partial",
    "Pydsge.C57_average",
    "Pydsge.C57_nhd_partial",
    "Pydsge.C57_refuted",
    "Pydsge.C57_sample_iff",
    "Pydsge.C57_lost"
   ],
   "note": "Fails when the linear part of the constraint's value vanishes in a period with a spell; adds up otherwise. C57_sample_iff is the exact condition for one sample: only the constant effect of a spell can be lost, and it is lost exactly if the linear part of the constraint's value is zero."
  },
  {
   "property": "C58",
   "status": "proved",
   "theorems": [
    "Pydsge.C58_bands",
    "Pydsge.C58_edges"
   ],
   "note": ""
  },
  {
   "property": "C59",
   "status": "partial",
   "theorems": [
    "Pydsge.C59_posterior",
    "Pydsge.C59_get_sample_partial",
    "Pydsge.C59_get_sample_refuted",
    "Pydsge.C59_few_walkers_refuted",
    "Pydsge.C59_get_sample_iff",
    "Pydsge.C59_always_iff",
    "Pydsge.C59_iff_hypotheses_met"
   ],
   "note": "posterior_sampler proved; get_sample refuted (indexes the walker axis, ignores its argument, fails with fewer than 8 walkers). The exact condition (or the whole outcome) is proved as well."
  },
  {
   "property": "C60",
   "status": "partial",
   "theorems": [
    "Pydsge.C60_names",
    "Pydsge.C60_load_after_save_partial",
    "Pydsge.C60_load_after_save_refuted",
    "Pydsge.C60_iff",
    "Pydsge.C60_iff_hypotheses_met"
   ],
   "note": "Exact condition on names proved; fails for names ending in .npz or shorter than four characters. The exact condition (or the whole outcome) is proved as well."
  },
  {
   "property": "C61",
   "status": "partial",
   "theorems": [
    "Pydsge.C61_succeeds_partial",
    "Pydsge.C61_stored_partial",
    "Pydsge.C61_failure",
    "Pydsge.C61_duplicates_refuted",
    "Pydsge.C61_reasons",
    "Pydsge.C61_outcome",
    "Pydsge.C61_exact"
   ],
   "note": "Fails for data frames with a repeated column name. C61_outcome: for every data frame, all columns of each observable are taken; C61_exact: one column per observable exactly if its name occurs once."
  },
  {
   "property": "C62",
   "status": "proved",
   "theorems": [
    "Pydsge.C62_vix",
    "Pydsge.C62_oix"
   ],
   "note": ""
  },
  {
   "property": "C63",
   "status": "proved",
   "theorems": [
    "Pydsge.C63_shifts_compose",
    "Pydsge.C63_equality",
    "Pydsge.C63_classes",
    "Pydsge.C63_printed_form"
   ],
   "note": ""
  },
  {
   "property": "C64",
   "status": "partial",
   "theorems": [
    "Pydsge.C64_sentinel_clash_refuted",
    "Pydsge.C64_other_rows_partial",
    "Pydsge.C64_iff"
   ],
   "note": "Refuted; the positive part for up to 999 rows is C04. The partial theorem covers tables of any size, except a least consistent pair in row 999. The exact condition (or the whole outcome) is proved as well."
  },
  {
   "property": "C65",
   "status": "partial",
   "theorems": [
    "Pydsge.C65_k_map_values",
    "Pydsge.C65_pair_partial",
    "Pydsge.C65_zero_refuted",
    "Pydsge.C65_pair_iff",
    "Pydsge.C65_declared"
   ],
   "note": "Refuted for l=0 without k: it is ignored, the spell found is used. The exact condition (or the whole outcome) is proved as well.  In terms of the declared model: C65_declared."
  },
  {
   "property": "C66",
   "status": "partial",
   "theorems": [
    "Pydsge.C66_shocks_add_up_partial",
    "Pydsge.C66_shocks_add_up_refuted",
    "Pydsge.C66_irfs_partial",
    "Pydsge.C66_iff"
   ],
   "note": "A repeated (name, period) overwrites the earlier entry. C66_iff is the exact condition."
  },
  {
   "property": "C67",
   "status": "partial",
   "theorems": [
    "Pydsge.C67_irfs_respect_bound_partial",
    "Pydsge.C67_irfs_respect_bound_refuted",
    "Pydsge.C67_only_if",
    "Pydsge.C67_silent",
    "Pydsge.C67_silent_met",
    "Pydsge.C67_unique",
    "Pydsge.C18_no_difference_met"
   ],
   "note": "Refuted: before the first shock the spell (0,0) is imposed, without a flag. C67_only_if: the bound can be violated only in a period where the continued spell is not the one the search gives; C67_silent: so never without the message about multiplicities.  With force_init_equil, where equilibria are unique and flag 0 means an equilibrium: every state of a response without an error satisfies the constraint equation (C67_unique)."
  },
  {
   "property": "C68",
   "status": "partial",
   "theorems": [
    "Pydsge.C68_obs_single_state_partial",
    "Pydsge.C68_obs_single_state_iff",
    "Pydsge.C68_obs_single_state_refuted"
   ],
   "note": "pandas shape rule as contract; fails for two or more observables, and if data of more than one period is loaded."
  },
  {
   "property": "C69",
   "status": "partial",
   "theorems": [
    "Pydsge.C69_simulate_arguments_partial",
    "Pydsge.C69_simulate_arguments_refuted",
    "Pydsge.C69_outcome"
   ],
   "note": "len(source['pars']) is evaluated unconditionally. The exact condition (or the whole outcome) is proved as well."
  },
  {
   "property": "C70",
   "status": "partial",
   "theorems": [
    "Pydsge.C70_observable_intervals_conservative_partial",
    "Pydsge.C70_observable_intervals_refuted",
    "Pydsge.C70_observable_intervals_iff"
   ],
   "note": "The standard deviations are added up linearly; for non-negative loadings the interval is too wide, never too narrow. Exactly the claimed width iff all states it loads on are perfectly correlated."
  },
  {
   "property": "C71",
   "status": "partial",
   "theorems": [
    "Pydsge.C71_l_max_alone_partial",
    "Pydsge.C71_l_max_alone_refuted",
    "Pydsge.C71_iff"
   ],
   "note": "TypeError for l_max < 2 without k_max. C71_iff is the exact condition."
  },
  {
   "property": "C72",
   "status": "partial",
   "theorems": [
    "Pydsge.C72_zero_fd_is_none_partial",
    "Pydsge.C72_zero_fd_is_none_refuted",
    "Pydsge.C72_same_model_partial",
    "Pydsge.C72_iff"
   ],
   "note": "Fails for constraints with lags. C72_iff is the exact condition."
  },
  {
   "property": "C73",
   "status": "partial",
   "theorems": [
    "Pydsge.C73_estimated_round_trip_partial",
    "Pydsge.C73_estimated_round_trip_refuted",
    "Pydsge.C73_iff"
   ],
   "note": "Fails when all parameters are estimated in another order. C73_iff is the exact condition."
  },
  {
   "property": "C74",
   "status": "partial",
   "theorems": [
    "Pydsge.C74_constants_partial",
    "Pydsge.C74_constants_refuted",
    "Pydsge.C74_dropped",
    "Pydsge.C74_same_input",
    "Pydsge.C74_dropped_hypotheses_met"
   ],
   "note": "The matrices drop the constant; exact iff it is zero. C74_dropped: constants added to any equations and to the constraint change nothing, neither acceptance nor the model."
  },
  {
   "property": "C75",
   "status": "partial",
   "theorems": [
    "Pydsge.C75_mode_density_partial",
    "Pydsge.C75_mode_density_refuted",
    "Pydsge.C75_mode_transformed_partial"
   ],
   "note": "Refuted with use_prior_transform: the untransformed chain vector is stored. The image of the stored vector under the transformation has the density mode_f."
  },
  {
   "property": "C76",
   "status": "partial",
   "theorems": [
    "Pydsge.C76_given_partial",
    "Pydsge.C76_start_refuted",
    "Pydsge.C76_given_run_partial",
    "Pydsge.C76_start_exact"
   ],
   "note": "Refuted: get_par has no argument nsample, a single vector is passed on."
  },
  {
   "property": "C77",
   "status": "partial",
   "theorems": [
    "Pydsge.C77_repeat_partial",
    "Pydsge.C77_repeat_refuted",
    "Pydsge.C77_repeat_iff",
    "Pydsge.C77_iff_hypotheses_met"
   ],
   "note": "Refuted: stored linear does not set the bounds, stored seed does not seed the generator. The exact condition (or the whole outcome) is proved as well."
  },
  {
   "property": "C78",
   "status": "partial",
   "theorems": [
    "Pydsge.C78_mbcs_refuted",
    "Pydsge.C78_no_states_partial"
   ],
   "note": "Refuted for every model with state variables: shapes do not match."
  },
  {
   "property": "C79",
   "status": "partial",
   "theorems": [
    "Pydsge.C79_post_mean_partial",
    "Pydsge.C79_zero_tune",
    "Pydsge.C79_post_mean_refuted",
    "Pydsge.C79_given_outcome"
   ],
   "note": "Refuted for a given chain (truth value of an array). tune=0 is the same as no tune. The exact condition (or the whole outcome) is proved as well."
  },
  {
   "property": "C80",
   "status": "proved",
   "theorems": [
    "Pydsge.C80_flag"
   ],
   "note": ""
  },
  {
   "property": "C81",
   "status": "proved",
   "theorems": [
    "Pydsge.C81_observables"
   ],
   "note": "For the YAML and the dict route alike; how the matrices come from the equations is C21."
  },
  {
   "property": "C82",
   "status": "proved",
   "theorems": [
    "Pydsge.C82_model_file_solved",
    "Pydsge.C82_flag_zero_is_max",
    "Pydsge.C82_observables",
    "Pydsge.C82_long_leads",
    "Pydsge.C82_long_leads_met"
   ],
   "note": "From the parsed text (expression trees) to paths by name. Longer leads: C37; lags in the constraint: C23, C24; lags in measurement equations: C21; constants: C74.  Without the condition on the leads the path solves the file with leads of more than two periods cut to two periods (C82_long_leads); C82_long_leads_met shows an accepted file with such a lead, the hypothesis that the solver succeeds is met in C82's own example."
  },
  {
   "property": "C83",
   "status": "partial",
   "theorems": [
    "Pydsge.C83_write_yaml_refuted",
    "Pydsge.C83_write_yaml_partial"
   ],
   "note": "Refuted for every model read from files: the attribute raw_yaml is never set, and the file is emptied before the error."
  },
  {
   "property": "C84",
   "status": "partial",
   "theorems": [
    "Pydsge.C84_saved_model_loads_partial",
    "Pydsge.C84_saved_model_loads_refuted",
    "Pydsge.C84_description_refuted",
    "Pydsge.C84_place",
    "Pydsge.C84_directory"
   ],
   "note": "Proved for models with data, under a contract for pickling; refuted for every model without data (KeyError), and for descriptions that are changed after reading a model with a functions file."
  },
  {
   "property": "C85",
   "status": "proved",
   "theorems": [
    "Pydsge.C85_dictionary_solved"
   ],
   "note": "Pickling of dictionaries assumed injective."
  },
  {
   "property": "C86",
   "status": "partial",
   "theorems": [
    "Pydsge.C86_dictionary_models_independent_refuted",
    "Pydsge.C86_dictionary_models_independent_partial",
    "Pydsge.C86_same_object_iff",
    "Pydsge.C86_iff_hypotheses_met"
   ],
   "note": "Refuted: repeated calls return the same object and data are written into the caller's dictionary. Partial: with force_processing the object is new. The exact condition (or the whole outcome) is proved as well."
  },
  {
   "property": "C87",
   "status": "partial",
   "theorems": [
    "Pydsge.C87_dictionary_entries_partial",
    "Pydsge.C87_dictionary_entries_refuted",
    "Pydsge.C87_no_equilibrium",
    "Pydsge.C87_flag_refuted"
   ],
   "note": "Refuted: positive bounds accepted, measurement equations cannot be left out.  What an accepted positive bound means: in a stable model no path that can be reported, whatever the state, shock and spell, is an equilibrium; the constrained variable falls below the bound for good (C87_no_equilibrium). Nevertheless there are states without an error flag, for all sizes of the tables (C87_flag_refuted)."
  },
  {
   "property": "C88",
   "status": "partial",
   "theorems": [
    "Pydsge.C88_static_models_refuted",
    "Pydsge.C88_static_model_solved_refuted",
    "Pydsge.C88_static_models_partial",
    "Pydsge.C88_slice_of_states",
    "Pydsge.C88_exact"
   ],
   "note": "Refuted for every solved model without states but with controls, with a solved example; proved for models with a state and k_max >= 1. C88_exact: exactly the models with a state can be simulated."
  },
  {
   "property": "C89",
   "status": "partial",
   "theorems": [
    "Pydsge.C89_parameter_sets_partial",
    "Pydsge.C89_samples_partial",
    "Pydsge.C89_parameter_sets_refuted",
    "Pydsge.C89_best",
    "Pydsge.C89_best_exact",
    "Pydsge.C89_best_hypotheses_met"
   ],
   "note": "Proved for calib, prior_mean, init and the names of the mode, and for samples; refuted for best, which keeps edited parameters. C89_best: best takes the parameters that are not estimated from the current ones; C89_best_exact: it is the documented set exactly if these have their calibrated values."
  },
  {
   "property": "C90",
   "status": "partial",
   "theorems": [
    "Pydsge.C90_solution_fits_partial",
    "Pydsge.C90_solution_fits_refuted"
   ],
   "note": "Proved after every successful set_par and through further successful set_par and plain get_par calls; refuted after get_par of a named set and after set_par(get_hx_only=True)."
  },
  {
   "property": "C91",
   "status": "partial",
   "theorems": [
    "Pydsge.C91_obs_leaves_model_partial",
    "Pydsge.C91_obs_leaves_model_refuted",
    "Pydsge.C91_parameters_kept_iff"
   ],
   "note": "Values proved right; the model keeps the last parameters with the old tables. The exact condition (or the whole outcome) is proved as well."
  },
  {
   "property": "C92",
   "status": "partial",
   "theorems": [
    "Pydsge.C92_prep_estim_partial",
    "Pydsge.C92_prep_estim_refuted",
    "Pydsge.C92_hypotheses_met",
    "Pydsge.C92_prep_estim_iff"
   ],
   "note": "refuted: raises for every model with ten parameters or ten estimated parameters (len('prior_mean') == 10) The exact condition (or the whole outcome) is proved as well."
  },
  {
   "property": "C93",
   "status": "partial",
   "theorems": [
    "Pydsge.C93_filter_types_partial",
    "Pydsge.C93_filter_types_refuted",
    "Pydsge.C93_hypotheses_met",
    "Pydsge.C93_succeeds_iff",
    "Pydsge.C93_inversion_refuted"
   ],
   "note": "refuted: inversion filter and particle filters always raise; unknown types give an ensemble filter The exact condition (or the whole outcome) is proved as well. Which error the inversion filter raises: `C93_inversion_refuted`."
  },
  {
   "property": "C94",
   "status": "proved",
   "theorems": [
    "Pydsge.C94_obs_cov"
   ],
   "note": "exact arithmetic"
  },
  {
   "property": "C95",
   "status": "partial",
   "theorems": [
    "Pydsge.C95_linear_shocks_partial",
    "Pydsge.C95_linear_shocks_refuted",
    "Pydsge.C95_lengths_iff"
   ],
   "note": "refuted: shapes do not fit for the states of the filter; true for a new state with shocks appended The exact condition (or the whole outcome) is proved as well."
  },
  {
   "property": "C96",
   "status": "partial",
   "theorems": [
    "Pydsge.C96_order_partial",
    "Pydsge.C96_order_refuted",
    "Pydsge.C96_hypotheses_met",
    "Pydsge.simGuard_vacuous",
    "Pydsge.C96_frame_row",
    "Pydsge.C96_exact",
    "Pydsge.C96_split",
    "Pydsge.C96_labels_exact",
    "Pydsge.C96_exact_met"
   ],
   "note": "refuted: the check in simulate compares pelf.vv with itself, irfs uses self.vv; true for parametrisations with the same pattern of zeros"
  },
  {
   "property": "C97",
   "status": "partial",
   "theorems": [
    "Pydsge.C97_irfs_settings_partial",
    "Pydsge.C97_irfs_settings_refuted",
    "Pydsge.C97_hypotheses_met",
    "Pydsge.irfsPrepare_ignored",
    "Pydsge.tFunc_outside",
    "Pydsge.C97_irfs_failures",
    "Pydsge.C97_simulated_iff",
    "Pydsge.C97_bounds_ignored"
   ],
   "note": "refuted: vectors of zeros are ignored, bounds are ignored without parameters, set_k is compared with the old bounds The exact condition (or the whole outcome) is proved as well."
  },
  {
   "property": "C98",
   "status": "partial",
   "theorems": [
    "Pydsge.C98_labels_partial",
    "Pydsge.C98_labels_refuted",
    "Pydsge.C98_hypotheses_met",
    "Pydsge.dead_shock_shifts",
    "Pydsge.C98_labels_iff"
   ],
   "note": "refuted: a shock whose loadings are all zero is put among the controls, and all states move by one position Exactly: they line up iff every shock enters some equation."
  },
  {
   "property": "C99",
   "status": "partial",
   "theorems": [
    "Pydsge.C99_no_shocks_partial",
    "Pydsge.C99_no_shocks_refuted",
    "Pydsge.C99_iff"
   ],
   "note": "refuted for every model without shocks; with shocks the masks can be applied The exact condition (or the whole outcome) is proved as well."
  }
 ]
}