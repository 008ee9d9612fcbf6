{
 "claims": [
  {
   "property": "C01",
   "status": "proved",
   "theorems": [
    "TicTac.C01_basis_exact",
    "TicTac.C01_rejects_iff"
   ],
   "note": ""
  },
  {
   "property": "C02",
   "status": "proved",
   "theorems": [
    "TicTac.C02_no_duplicates"
   ],
   "note": ""
  },
  {
   "property": "C03",
   "status": "proved",
   "theorems": [
    "TicTac.C03_channels_contiguous"
   ],
   "note": ""
  },
  {
   "property": "C04",
   "status": "proved",
   "theorems": [
    "TicTac.C04_deuteron_channels",
    "TicTac.C04_no_deuteron_when_J0"
   ],
   "note": "for J_2N_max=0 no channel has a deuteron state"
  },
  {
   "property": "C05",
   "status": "proved",
   "theorems": [
    "TicTac.C05_slots_in_range",
    "TicTac.C05_slot_shared_iff"
   ],
   "note": ""
  },
  {
   "property": "C06",
   "status": "proved",
   "theorems": [
    "TicTac.C06_slots_distinct",
    "TicTac.C06_slot_out_of_range",
    "TicTac.C06_fits_exactly"
   ],
   "note": "The unconditional expectation is false of the code (counterexample proved); the exact condition is proved."
  },
  {
   "property": "C07",
   "status": "proved",
   "theorems": [
    "TicTac.C07_no_tensor_with_isospin_breaking_stops",
    "TicTac.C07_tensor_on_runs",
    "TicTac.C07_runs_exactly"
   ],
   "note": "The unconditional expectation is false of the code (counterexample proved); the exact condition is proved."
  },
  {
   "property": "C08",
   "status": "proved",
   "theorems": [
    "TicTac.C08_last_assignment_wins",
    "TicTac.C08_integer_value",
    "TicTac.C08_well_formed_accepted",
    "TicTac.C08_readme_default_differs"
   ],
   "note": "README's default for Np_WP (30) differs from the code (50): proved as C08_readme_default_differs"
  },
  {
   "property": "C09",
   "status": "proved",
   "theorems": [
    "TicTac.C09_float_for_int_accepted",
    "TicTac.C09_flag_wrong_type_stops",
    "TicTac.C09_int_value_starts_with_literal",
    "TicTac.C09_integer_exactly",
    "TicTac.C09_accepted_exactly"
   ],
   "note": "The unconditional expectation is false of the code (counterexample proved); the exact condition is proved."
  },
  {
   "property": "C10",
   "status": "proved",
   "theorems": [
    "TicTac.C10_short_argument_throws",
    "TicTac.C10_exception_only_from_numbers",
    "TicTac.C10_exception_exactly"
   ],
   "note": "The unconditional expectation is false of the code (counterexample proved); the exact condition is proved."
  },
  {
   "property": "C11",
   "status": "proved",
   "theorems": [
    "TicTac.C11_txt_value_lost",
    "TicTac.C11_energy_file_example",
    "TicTac.C11_assignment"
   ],
   "note": "The unconditional expectation is false of the code (counterexample proved); the exact condition is proved."
  },
  {
   "property": "C12",
   "status": "proved",
   "theorems": [
    "TicTac.C12_accepted_constraints",
    "TicTac.C12_accepts_iff"
   ],
   "note": ""
  },
  {
   "property": "C13",
   "status": "proved",
   "theorems": [
    "TicTac.C13_split_equals_single"
   ],
   "note": ""
  },
  {
   "property": "C14",
   "status": "proved",
   "theorems": [
    "TicTac.C14_U_file_injective",
    "TicTac.C14_U_breakup_file_injective",
    "TicTac.C14_P123_file_injective",
    "TicTac.C14_P123_subfile_injective",
    "TicTac.C14_kinds_distinct",
    "TicTac.C14_jobs_distinct_files"
   ],
   "note": ""
  },
  {
   "property": "C15",
   "status": "proved",
   "theorems": [
    "TicTac.C15_result_is_matrix",
    "TicTac.C15_schedule_independent",
    "TicTac.C15_no_error"
   ],
   "note": ""
  },
  {
   "property": "C16",
   "status": "proved",
   "theorems": [
    "TicTac.C16_recovery_reads_nothing",
    "TicTac.C16_exactly"
   ],
   "note": "The unconditional expectation is false of the code (counterexample proved); the exact condition is proved. Floating point in the estimate is replaced by exact rationals."
  },
  {
   "property": "C17",
   "status": "proved",
   "theorems": [
    "TicTac.C17_roundtrip"
   ],
   "note": ""
  },
  {
   "property": "C18",
   "status": "proved",
   "theorems": [
    "TicTac.C18_mismatch_rejected"
   ],
   "note": ""
  },
  {
   "property": "C19",
   "status": "proved",
   "theorems": [
    "TicTac.C19_sort_preserves",
    "TicTac.C19_csc_columns",
    "TicTac.C19_csr_rows"
   ],
   "note": ""
  },
  {
   "property": "C20",
   "status": "proved",
   "theorems": [
    "TicTac.C20_state_index",
    "TicTac.C20_state_index_decode",
    "TicTac.C20_overlap_index",
    "TicTac.C20_phi_index",
    "TicTac.C20_plm_index",
    "TicTac.C20_U_index",
    "TicTac.C20_V_uncoupled_index",
    "TicTac.C20_V_coupled_index",
    "TicTac.C20_Atilde_index",
    "TicTac.C20_packed_index"
   ],
   "note": ""
  },
  {
   "property": "C21",
   "status": "proved",
   "theorems": [
    "TicTac.C21_coo_to_dense_fails",
    "TicTac.C21_dense_to_coo"
   ],
   "note": "COO to dense is broken for every input; dense to COO is right for every input."
  },
  {
   "property": "C22",
   "status": "proved",
   "theorems": [
    "TicTac.C22_lab_roundtrip",
    "TicTac.C22_com_roundtrip",
    "TicTac.C22_lab_to_com_strict",
    "TicTac.C22_com_to_lab_strict",
    "TicTac.C22_q_energy",
    "TicTac.C22_p_energy"
   ],
   "note": "Exact real arithmetic."
  },
  {
   "property": "C23",
   "status": "proved",
   "theorems": [
    "TicTac.C23_grid_strict",
    "TicTac.C23_bins_partition"
   ],
   "note": "Exact real arithmetic."
  },
  {
   "property": "C24",
   "status": "proved",
   "theorems": [
    "TicTac.C24_custom_q_rejected",
    "TicTac.C24_grid_sources",
    "TicTac.C24_custom_q_exactly"
   ],
   "note": "The unconditional expectation is false of the code (counterexample proved); the exact condition is proved."
  },
  {
   "property": "C25",
   "status": "proved",
   "theorems": [
    "TicTac.C25_long_file_overflows",
    "TicTac.C25_short_file_safe",
    "TicTac.C25_overflow_exactly"
   ],
   "note": "The unconditional expectation is false of the code (counterexample proved); the exact condition is proved."
  },
  {
   "property": "C26",
   "status": "proved",
   "theorems": [
    "TicTac.C26_layout",
    "TicTac.C26_mapped_rule",
    "TicTac.C26_midpoint"
   ],
   "note": "Exact real arithmetic."
  },
  {
   "property": "C27",
   "status": "proved",
   "theorems": [
    "TicTac.C27_permuted_momenta",
    "TicTac.C27_cos_physical"
   ],
   "note": "Exact real arithmetic; stated for three momentum vectors in any real inner product space."
  },
  {
   "property": "C28",
   "status": "proved",
   "theorems": [
    "TicTac.C28_incompatible_zero"
   ],
   "note": ""
  },
  {
   "property": "C29",
   "status": "proved",
   "theorems": [
    "TicTac.C29_legendre",
    "TicTac.C29_table",
    "TicTac.C29_properties"
   ],
   "note": ""
  },
  {
   "property": "C30",
   "status": "proved",
   "theorems": [
    "TicTac.C30_isospin",
    "TicTac.C30_isospin_values",
    "TicTac.C30_one_pion_exchange",
    "TicTac.C30_leading_order",
    "TicTac.C30_hermitian",
    "TicTac.C30_table_end",
    "TicTac.C30_regular"
   ],
   "note": "Exact arithmetic; any quadrature rule. The table of Legendre polynomials ends at J=100 (documented by the program); beyond it the routine reads outside its table (C30_table_end)."
  },
  {
   "property": "C31",
   "status": "proved",
   "theorems": [
    "TicTac.C31_component_selected",
    "TicTac.C31_unphysical_stops",
    "TicTac.C31_potential_symmetric",
    "TicTac.C31_LO_symmetric"
   ],
   "note": "Symmetry in every mode, tensor force on."
  },
  {
   "property": "C32",
   "status": "proved",
   "theorems": [
    "TicTac.C32_potential_matrix",
    "TicTac.C32_midpoint_breaking_loses_1S0",
    "TicTac.C32_midpoint_breaking_wrong",
    "TicTac.C32_matrix_exactly",
    "TicTac.C32_all_modes"
   ],
   "note": "The unconditional expectation is false of the code (counterexample proved); the exact condition is proved."
  },
  {
   "property": "C33",
   "status": "proved",
   "theorems": [
    "TicTac.C33_bin_average",
    "TicTac.C33_between"
   ],
   "note": ""
  },
  {
   "property": "C34",
   "status": "proved",
   "theorems": [
    "TicTac.C34_each_channel_once",
    "TicTac.C34_potential_each_channel_once"
   ],
   "note": ""
  },
  {
   "property": "C35",
   "status": "proved",
   "theorems": [
    "TicTac.C35_reorder"
   ],
   "note": ""
  },
  {
   "property": "C36",
   "status": "proved",
   "theorems": [
    "TicTac.C36_uncoupled",
    "TicTac.C36_uncoupled_bound",
    "TicTac.C36_coupled",
    "TicTac.C36_coupled_bound",
    "TicTac.C36_two_bins_bound_disordered"
   ],
   "note": "Needs at least 2 bins (3 in the deuteron channel); the last theorem shows the claim false for 2 bins there. N=1 reads out of bounds in C and is excluded."
  },
  {
   "property": "C37",
   "status": "proved",
   "theorems": [
    "TicTac.C37_check",
    "TicTac.C37_run"
   ],
   "note": "LAPACK by contract (LapackContract, shown satisfiable by exists_lapack)."
  },
  {
   "property": "C38",
   "status": "proved",
   "theorems": [
    "TicTac.C38_bracketed",
    "TicTac.C38_outside_dropped",
    "TicTac.C38_bracketed_exactly"
   ],
   "note": "The unconditional expectation is false of the code (counterexample proved); the exact condition is proved."
  },
  {
   "property": "C39",
   "status": "proved",
   "theorems": [
    "TicTac.C39_on_shell_rows",
    "TicTac.C39_indices",
    "TicTac.C39_narrow_bin_wrong"
   ],
   "note": "Exact real arithmetic; the index claim has the stated width condition, and the last theorem shows it is needed."
  },
  {
   "property": "C40",
   "status": "proved",
   "theorems": [
    "TicTac.C40_recorded_cells",
    "TicTac.C40_recorded_exactly",
    "TicTac.C40_offsets",
    "TicTac.C40_index_minus_one"
   ],
   "note": "Exact set of recorded cells; the expectation that all indices are inside the grid is false (C40_index_minus_one)."
  },
  {
   "property": "C41",
   "status": "proved",
   "theorems": [
    "TicTac.C41_resolvent_bc",
    "TicTac.C41_imaginary_part"
   ],
   "note": "Exact real arithmetic; energies on a bin edge excluded (the C code returns infinities there)."
  },
  {
   "property": "C42",
   "status": "proved",
   "theorems": [
    "TicTac.C42_resolvent_cc",
    "TicTac.C42_imaginary_part"
   ],
   "note": "Exact real arithmetic; corner energies excluded (the C code returns NaN there)."
  },
  {
   "property": "C43",
   "status": "proved",
   "theorems": [
    "TicTac.C43_tables_exist",
    "TicTac.C43_pvc_column",
    "TicTac.C43_kernel_column",
    "TicTac.C43_kernel_rows",
    "TicTac.C43_program_channels"
   ],
   "note": "Exact real arithmetic; dgemm by its contract; tensor force on; rows for every order of the worker iterations."
  },
  {
   "property": "C44",
   "status": "proved",
   "theorems": [
    "TicTac.C44_neumann_terms",
    "TicTac.C44_program"
   ],
   "note": "Exact arithmetic, dgemm by its contract, dimension up to 2^28 (beyond it the solver stops, C45_too_large)."
  },
  {
   "property": "C45",
   "status": "proved",
   "theorems": [
    "TicTac.C45_chunks",
    "TicTac.C45_too_large",
    "TicTac.C45_chunks_exactly"
   ],
   "note": "The unconditional expectation is false of the code (counterexample proved); the exact condition is proved."
  },
  {
   "property": "C46",
   "status": "proved",
   "theorems": [
    "TicTac.C46_is_pade",
    "TicTac.C46_every_pade",
    "TicTac.C46_no_value_iff",
    "TicTac.C46_exact_on_rational",
    "TicTac.C46_breakdown"
   ],
   "note": "Exact complex arithmetic; the determinants are those of C76."
  },
  {
   "property": "C47",
   "status": "proved",
   "theorems": [
    "TicTac.C47_elastic_complete",
    "TicTac.C47_complete_unless_count",
    "TicTac.C47_count_stop_unassigned",
    "TicTac.C47_breakup_unassigned"
   ],
   "note": "The unconditional expectation is false of the code (counterexample proved); the exact condition is proved."
  },
  {
   "property": "C48",
   "status": "proved",
   "theorems": [
    "TicTac.C48_dense",
    "TicTac.C48_dense_exists",
    "TicTac.C48_solve_MM",
    "TicTac.C48_terminating",
    "TicTac.C48_pade_agrees"
   ],
   "note": "Exact arithmetic; zgetrf/zgetrs by their contracts. Also: approximants of order at least the dimension equal the direct solution."
  },
  {
   "property": "C49",
   "status": "proved",
   "theorems": [
    "TicTac.C49_two_channel_header_wrong",
    "TicTac.C49_columns",
    "TicTac.C49_headings_exactly"
   ],
   "note": "The unconditional expectation is false of the code (counterexample proved); the exact condition is proved."
  },
  {
   "property": "C50",
   "status": "proved",
   "theorems": [
    "TicTac.C50_rectangular_file_read"
   ],
   "note": ""
  },
  {
   "property": "C51",
   "status": "proved",
   "theorems": [
    "TicTac.C51_range_outside_file",
    "TicTac.C51_range",
    "TicTac.C51_range_exactly"
   ],
   "note": "The unconditional expectation is false of the code (counterexample proved); the exact condition is proved."
  },
  {
   "property": "C52",
   "status": "proved",
   "theorems": [
    "TicTac.C52_breakup_write_out_of_range",
    "TicTac.C52_breakup_write",
    "TicTac.C52_writes_exactly"
   ],
   "note": "The unconditional expectation is false of the code (counterexample proved); the exact condition is proved."
  },
  {
   "property": "C53",
   "status": "proved",
   "theorems": [
    "TicTac.C53_clebsch_lookup",
    "TicTac.C53_sixj_index",
    "TicTac.C53_sixj_lookup"
   ],
   "note": ""
  },
  {
   "property": "C54",
   "status": "proved",
   "theorems": [
    "TicTac.C54_error_reports_success",
    "TicTac.C54_status_nonzero_iff"
   ],
   "note": "The unconditional expectation is false of the code (counterexample proved); the exact condition is proved."
  },
  {
   "property": "C55",
   "status": "proved",
   "theorems": [
    "TicTac.C55_reorder",
    "TicTac.C55_permutation"
   ],
   "note": ""
  },
  {
   "property": "C56",
   "status": "proved",
   "theorems": [
    "TicTac.C56_construction_reads_out_of_range",
    "TicTac.C56_in_range_after_push"
   ],
   "note": "The out-of-range read happens for every accepted truncation."
  },
  {
   "property": "C57",
   "status": "proved",
   "theorems": [
    "TicTac.C57_banner_parity_wrong"
   ],
   "note": "Wrong in every channel."
  },
  {
   "property": "C58",
   "status": "proved",
   "theorems": [
    "TicTac.C58_overlap_safe",
    "TicTac.C58_overlap_sound"
   ],
   "note": ""
  },
  {
   "property": "C59",
   "status": "proved",
   "theorems": [
    "TicTac.C59_overflow_unreported",
    "TicTac.C59_overflow_small",
    "TicTac.C59_reported_exactly"
   ],
   "note": "The unconditional expectation is false of the code (counterexample proved); the exact condition is proved."
  },
  {
   "property": "C60",
   "status": "proved",
   "theorems": [
    "TicTac.C60_prestored_G_eq_direct"
   ],
   "note": "GSL coefficient functions are parameters"
  },
  {
   "property": "C61",
   "status": "proved",
   "theorems": [
    "TicTac.C61_long_folder_overflows",
    "TicTac.C61_name_copied_exactly"
   ],
   "note": "The unconditional expectation is false of the code (counterexample proved); the exact condition is proved."
  },
  {
   "property": "C62",
   "status": "proved",
   "theorems": [
    "TicTac.C62_energy_file_not_settable",
    "TicTac.C62_energy_file_in_list"
   ],
   "note": "The unconditional expectation is false of the code (counterexample proved); the exact condition is proved."
  },
  {
   "property": "C63",
   "status": "proved",
   "theorems": [
    "TicTac.C63_missing_parameter_file_crashes",
    "TicTac.C63_nonempty_file",
    "TicTac.C63_division_exactly"
   ],
   "note": "The unconditional expectation is false of the code (counterexample proved); the exact condition is proved."
  },
  {
   "property": "C64",
   "status": "proved",
   "theorems": [
    "TicTac.C64_bad_channel_index_unreported",
    "TicTac.C64_valid_channel_index",
    "TicTac.C64_job_exactly"
   ],
   "note": "The unconditional expectation is false of the code (counterexample proved); the exact condition is proved."
  },
  {
   "property": "C65",
   "status": "proved",
   "theorems": [
    "TicTac.C65_buffer_in_range",
    "TicTac.C65_nothing_lost"
   ],
   "note": ""
  },
  {
   "property": "C66",
   "status": "proved",
   "theorems": [
    "TicTac.C66_other_settings_accepted",
    "TicTac.C66_other_basis_rejected",
    "TicTac.C66_accepted_exactly"
   ],
   "note": "The unconditional expectation is false of the code (counterexample proved); the exact condition is proved."
  },
  {
   "property": "C67",
   "status": "proved",
   "theorems": [
    "TicTac.C67_failed_write_unreported",
    "TicTac.C67_failed_write",
    "TicTac.C67_exactly"
   ],
   "note": "The unconditional expectation is false of the code (counterexample proved); the exact condition is proved."
  },
  {
   "property": "C68",
   "status": "proved",
   "theorems": [
    "TicTac.C68_only_last_set_kept",
    "TicTac.C68_single_set",
    "TicTac.C68_other_settings_apart",
    "TicTac.C68_kept_exactly"
   ],
   "note": "The unconditional expectation is false of the code (counterexample proved); the exact condition is proved."
  },
  {
   "property": "C69",
   "status": "proved",
   "theorems": [
    "TicTac.C69_newton_stop",
    "TicTac.C69_gauss_exact"
   ],
   "note": "Exact real arithmetic; termination and distinct nodes are proved in C121."
  },
  {
   "property": "C70",
   "status": "proved",
   "theorems": [
    "TicTac.C70_relativistic"
   ],
   "note": ""
  },
  {
   "property": "C71",
   "status": "proved",
   "theorems": [
    "TicTac.C71_radial_integral"
   ],
   "note": ""
  },
  {
   "property": "C72",
   "status": "proved",
   "theorems": [
    "TicTac.C72_stored_wave_packets",
    "TicTac.exists_lapack"
   ],
   "note": "LAPACK by contract; boundaries part for non-degenerate, non-zero spectra and at least 3 bins."
  },
  {
   "property": "C73",
   "status": "proved",
   "theorems": [
    "TicTac.C73_resolvent_array",
    "TicTac.resolventArray_eq"
   ],
   "note": "LAPACK by contract; non-degenerate non-zero spectra, at least 3 bins."
  },
  {
   "property": "C74",
   "status": "proved",
   "theorems": [
    "TicTac.C74_off_shell_cell_recorded",
    "TicTac.C74_exactly"
   ],
   "note": "The unconditional expectation is false of the code (counterexample proved); the exact condition is proved."
  },
  {
   "property": "C75",
   "status": "proved",
   "theorems": [
    "TicTac.C75_on_shell_cut"
   ],
   "note": "Exact real arithmetic."
  },
  {
   "property": "C76",
   "status": "proved",
   "theorems": [
    "TicTac.C76_determinant"
   ],
   "note": "zgetrf by its contract."
  },
  {
   "property": "C77",
   "status": "proved",
   "theorems": [
    "TicTac.C77_small_element_not_resummed",
    "TicTac.C77_wrong_by_half",
    "TicTac.C77_exactly"
   ],
   "note": "The unconditional expectation is false of the code (counterexample proved); the exact condition is proved."
  },
  {
   "property": "C78",
   "status": "proved",
   "theorems": [
    "TicTac.C78_dense_breakup_zero",
    "TicTac.C78_exactly"
   ],
   "note": "Exact rule of the iterative solver; the direct solver reports zeros."
  },
  {
   "property": "C79",
   "status": "proved",
   "theorems": [
    "TicTac.C79_yukawa",
    "TicTac.C79_only_S_waves",
    "TicTac.C79_hermitian"
   ],
   "note": "Exact arithmetic."
  },
  {
   "property": "C80",
   "status": "proved",
   "theorems": [
    "TicTac.C80_direct",
    "TicTac.C80_iterative",
    "TicTac.C80_completes"
   ],
   "note": "Exact arithmetic. Hypotheses collected in RunHyps: Hermitian interaction, tensor force on, quadrature or no isospin breaking (C32), nondegenerate two-nucleon spectra, LAPACK's contract; the permutation matrix is an input (any list of entries in range). The iterative statement is for runs without breakup. A complete run meeting all hypotheses is given in Props/RunExample.lean."
  },
  {
   "property": "C81",
   "status": "proved",
   "theorems": [
    "TicTac.C81_breakup_table",
    "TicTac.C81_run"
   ],
   "note": "Exact arithmetic; keys of the maps unbounded. C81_run: the hypotheses hold of what the on-shell search and the state space give, and the table is made. Example run: bu_example."
  },
  {
   "property": "C82",
   "status": "proved",
   "theorems": [
    "TicTac.C82_headings_distinct",
    "TicTac.C82_same_heading",
    "TicTac.C82_example",
    "TicTac.C82_same_heading_exactly"
   ],
   "note": "The unconditional expectation is false of the code (counterexample proved); the exact condition is proved."
  },
  {
   "property": "C83",
   "status": "proved",
   "theorems": [
    "TicTac.C83_bound_bin_recorded",
    "TicTac.C83_exactly"
   ],
   "note": "The unconditional expectation is false of the code (counterexample proved); the exact condition is proved."
  },
  {
   "property": "C84",
   "status": "proved",
   "theorems": [
    "TicTac.C84_cell_listed_twice",
    "TicTac.C84_exactly"
   ],
   "note": "The unconditional expectation is false of the code (counterexample proved); the exact condition is proved."
  },
  {
   "property": "C85",
   "status": "proved",
   "theorems": [
    "TicTac.C85_permutation_matrix",
    "TicTac.C85_completes"
   ],
   "note": "Exact arithmetic; GSL's functions satisfy GslContract (selection rules, array layout); quadrature points inside their intervals (hypothesis). Example functions and run with a non-zero matrix in Props/PermutationExample.lean."
  },
  {
   "property": "C86",
   "status": "proved",
   "theorems": [
    "TicTac.C86_isospin"
   ],
   "note": "As C85."
  },
  {
   "property": "C87",
   "status": "proved",
   "theorems": [
    "TicTac.C87_computed",
    "TicTac.C87_read",
    "TicTac.C87_direct",
    "TicTac.C87_iterative"
   ],
   "note": "Exact arithmetic; hypotheses of C80 and C85 except those on the permutation matrix, which are proved. A complete run is given in Props/PermutationExample.lean."
  },
  {
   "property": "C88",
   "status": "proved",
   "theorems": [
    "TicTac.C88_phi_mesh",
    "TicTac.C88_phi_exact",
    "TicTac.C88_points_inside"
   ],
   "note": "Exact arithmetic; gsl_sf_legendre_Pl is the Legendre polynomial on [-1,1] and stops outside; convergence of the Newton iteration itself is not claimed. gaussMesh_one is a complete one-point run."
  },
  {
   "property": "C89",
   "status": "proved",
   "theorems": [
    "TicTac.C89_direct",
    "TicTac.C89_memory_dependent",
    "TicTac.C89_iterative"
   ],
   "note": "Direct solver in full; iterative solver without breakup, for machines that agree in the one memory cell before the array of approximants; C89_memory_dependent proves that this condition is needed. No claim for the iterative solver with breakup. Two different machines are exhibited in Props/ReproExample.lean."
  },
  {
   "property": "C90",
   "status": "proved",
   "theorems": [
    "TicTac.C90_row_reads_back",
    "TicTac.C90_row_lossless",
    "TicTac.C90_elastic_row"
   ],
   "note": "operator<< enters as a contract: correct rounding to 17 significant digits, any choice at ties. Infinite and not-a-number entries are printed as inf/nan and are outside the statement."
  },
  {
   "property": "C91",
   "status": "proved",
   "theorems": [
    "TicTac.C91_minus_zero_malformed",
    "TicTac.C91_wellformed",
    "TicTac.C91_wellformed_exactly"
   ],
   "note": "The unconditional expectation is false of the code (counterexample proved); the exact condition is proved."
  },
  {
   "property": "C92",
   "status": "proved",
   "theorems": [
    "TicTac.C92_false",
    "TicTac.C92_grids_collide",
    "TicTac.C92_boundary",
    "TicTac.C92_determined"
   ],
   "note": "The unconditional expectation is false of the code (counterexample proved); the exact condition is proved."
  },
  {
   "property": "C93",
   "status": "proved",
   "theorems": [
    "TicTac.C93_partial_waves",
    "TicTac.C93_cut",
    "TicTac.C93_stored_matrix"
   ],
   "note": "Exact arithmetic, angular mesh any rule with points in [-1,1]; the loop functions of two-pion exchange are an arbitrary function of (constants, nucleon mass, q^2, k^2)."
  },
  {
   "property": "C94",
   "status": "proved",
   "theorems": [
    "TicTac.C94_hermitian",
    "TicTac.C94_matrix_symmetric"
   ],
   "note": "Element level also where the Legendre table ends."
  },
  {
   "property": "C95",
   "status": "proved",
   "theorems": [
    "TicTac.C95_scope",
    "TicTac.C95_effect",
    "TicTac.C95_unused"
   ],
   "note": "Angular mesh any rule with points in [-1,1], loop functions arbitrary, exact arithmetic. Columns of pion-nucleon constants act in all waves: no claim on their effect."
  },
  {
   "property": "C96",
   "status": "proved",
   "theorems": [
    "TicTac.C96_walk_uses_line",
    "TicTac.C96_extra_columns",
    "TicTac.C96_missing_columns",
    "TicTac.C96_missing_columns_overrun"
   ],
   "note": "Covers all files whose lines have equal numbers of entries."
  },
  {
   "property": "C97",
   "status": "proved",
   "theorems": [
    "TicTac.C97_walk_ignored"
   ],
   "note": "The walk is ignored for every file and range."
  },
  {
   "property": "C98",
   "status": "proved",
   "theorems": [
    "TicTac.C98_builtin",
    "TicTac.C98_uninitialised"
   ],
   "note": "Both halves proved."
  },
  {
   "property": "C99",
   "status": "proved",
   "theorems": [
    "TicTac.C99_two_pion",
    "TicTac.C99_potential",
    "TicTac.C103_bracket"
   ],
   "note": "Exact arithmetic; mesh points of the program's rules are parameters (inside the interval). The spectral functions contain the program's bracket function, which is the published one by C103_bracket (exactly above 0.05, to 5.5e-13 below)."
  },
  {
   "property": "C100",
   "status": "proved",
   "theorems": [
    "TicTac.C100_A",
    "TicTac.C100_L",
    "TicTac.C100_A_cutoff",
    "TicTac.C100_L_cutoff"
   ],
   "note": ""
  },
  {
   "property": "C101",
   "status": "proved",
   "theorems": [
    "TicTac.C101_central"
   ],
   "note": ""
  },
  {
   "property": "C102",
   "status": "proved",
   "theorems": [
    "TicTac.C102_tail",
    "TicTac.C102_momenta"
   ],
   "note": ""
  },
  {
   "property": "C103",
   "status": "proved",
   "theorems": [
    "TicTac.C103_bracket"
   ],
   "note": ""
  },
  {
   "property": "C104",
   "status": "proved",
   "theorems": [
    "TicTac.C104_defined"
   ],
   "note": ""
  },
  {
   "property": "C105",
   "status": "proved",
   "theorems": [
    "TicTac.C105_transverse",
    "TicTac.C105_strength"
   ],
   "note": ""
  },
  {
   "property": "C106",
   "status": "proved",
   "theorems": [
    "TicTac.C106_versions"
   ],
   "note": ""
  },
  {
   "property": "C107",
   "status": "proved",
   "theorems": [
    "TicTac.C107_history"
   ],
   "note": ""
  },
  {
   "property": "C108",
   "status": "proved",
   "theorems": [
    "TicTac.C108_partial_waves",
    "TicTac.C108_cut",
    "TicTac.C108_stored_matrix",
    "TicTac.C108_accuracy",
    "TicTac.C108_stored_accuracy"
   ],
   "note": "Exact if the quadrature (SEX, CE1, FDEXP) is exact; C108_accuracy: with FDEXP as written and errors up to eps in SEX and CE1 the deviation is at most K (eps + e^-100), K depending on momenta and wave only. All else of pnijm.f is modelled; exact arithmetic."
  },
  {
   "property": "C109",
   "status": "proved",
   "theorems": [
    "TicTac.C109_hermitian",
    "TicTac.C109_symmetric_matrix"
   ],
   "note": "Any values of the quadrature routines as functions of their arguments."
  },
  {
   "property": "C110",
   "status": "proved",
   "theorems": [
    "TicTac.C110_ce1"
   ],
   "note": "Exact arithmetic; the 34 coefficients are those of the source. The defect r' - r + 1/x of each rational piece is bounded by a Bernstein check in the kernel (decide +kernel on rationals, sound for all x by nonnegOn_sound)."
  },
  {
   "property": "C111",
   "status": "proved",
   "theorems": [
    "TicTac.C111_in_every_history",
    "TicTac.C111_beyond_table",
    "TicTac.C111_zeroed_tables"
   ],
   "note": "Exact arithmetic. CE1 is the model of C110, not assumed. The choice of the starting index of the backward recursion (GRENS) is proved to damp the unknown start below 1e-7 for every y in range. SEX with y up to 1e-3 (SMLLEX) and x below 1 (WEX) is not covered."
  },
  {
   "property": "C112",
   "status": "proved",
   "theorems": [
    "TicTac.C112_small",
    "TicTac.C112_wave_two",
    "TicTac.C112_wave_two_propagator",
    "TicTac.C112_mixed_history"
   ],
   "note": "Exact arithmetic. QJ99 (hypergeometric series and series in 1/x) is proved to return the Legendre function of the second kind within 1.34e-7 of its value for every wave. Two defects are proved as they are. The branches for x below 1 (WEX) and negative x are not modelled."
  },
  {
   "property": "C113",
   "status": "proved",
   "theorems": [
    "TicTac.C113_same_terms",
    "TicTac.C113_in_every_history",
    "TicTac.C113_entries_used",
    "TicTac.C113_fixed_wave",
    "TicTac.C113_new_wave",
    "TicTac.C113_beyond_tables",
    "TicTac.C113_beyond_tables_seven"
   ],
   "note": "Exact arithmetic. CE1 is the modelled routine of C110. Leaving the tables is the outcome none of the model; the defect for J of 5 and more is proved as it is."
  },
  {
   "property": "C114",
   "status": "proved",
   "theorems": [
    "TicTac.C114_history_free",
    "TicTac.C114_sequence",
    "TicTac.C114_other_charge"
   ],
   "note": "The quadratures SEX, CE1 and FDEXP are functions of their arguments here; the memory of SEX is the subject of C113."
  },
  {
   "property": "C115",
   "status": "proved",
   "theorems": [
    "TicTac.C115_walk",
    "TicTac.C115_fixed",
    "TicTac.C115_split"
   ],
   "note": "Hypotheses per solve as in C80/C87 (SolveHyps): tensor force, at least three p bins, nondegenerate two-nucleon spectra, LAPACK contract, exact real arithmetic; with breakup the iterative solver must not stop early by its count of accepted elements (see C47), the array of breakup amplitudes is large enough (C52); C115_split (elastic files; iterative solver without breakup) assumes one solution (direct) or equal content of the cell read before the array (iterative, see C89)."
  },
  {
   "property": "C116",
   "status": "proved",
   "theorems": [
    "TicTac.C116_iterative",
    "TicTac.C116_direct_zero",
    "TicTac.C116_completes"
   ],
   "note": "Hypotheses per channel as in C80/C87. Cells recorded outside the grids (C82-C84) are excluded: their amplitudes are read from other elements. C116_direct_zero and the count hypothesis record defects: the direct solver never fills the breakup array, and an early stop by the shared counter (C47) leaves elements unconverged."
  },
  {
   "property": "C117",
   "status": "proved",
   "theorems": [
    "TicTac.C117_open",
    "TicTac.C117_fine_grid",
    "TicTac.C117_run"
   ],
   "note": "The expected property (recorded cells conserve energy) is false of the code; the theorems say exactly which cells do. C117_run is the statement for a whole channel calculation."
  },
  {
   "property": "C118",
   "status": "proved",
   "theorems": [
    "TicTac.C118_exact",
    "TicTac.C118_exactly",
    "TicTac.C118_overlap_table",
    "TicTac.C118_square_grid",
    "TicTac.C118_usual_sizes"
   ],
   "note": "Expressions with a size_t operand are 64-bit and not listed; index expressions of the Clebsch-Gordan table are not listed. Signed overflow is undefined in C++; wrapping is assumed for what happens beyond the bounds."
  },
  {
   "property": "C119",
   "status": "proved",
   "theorems": [
    "TicTac.C119_record",
    "TicTac.C119_lossless",
    "TicTac.C119_scale_collides",
    "TicTac.C119_not_an_input_file",
    "TicTac.C119_rerun"
   ],
   "note": "Conversion of a double by operator<< (fixed, 3 decimals) and stod enter as contracts. Strings containing an end of line are excluded. The copy of the record printed on the screen is not modelled."
  },
  {
   "property": "C120",
   "status": "proved",
   "theorems": [
    "TicTac.C120_file",
    "TicTac.C120_path",
    "TicTac.C120_matches",
    "TicTac.C120_request",
    "TicTac.C120_copy",
    "TicTac.C120_end_rows",
    "TicTac.C120_not_midpoints",
    "TicTac.C120_midpoints_iff",
    "TicTac.C120_between",
    "TicTac.C120_narrow_below",
    "TicTac.C120_example"
   ],
   "note": "Values in exact arithmetic; C120_copy assumes the stored doubles are accurate to 1e-9 and rows differ by more than 1e-8. Conversion of a double by operator<< is a contract."
  },
  {
   "property": "C121",
   "status": "proved",
   "theorems": [
    "TicTac.C121_gauss",
    "TicTac.C121_shape",
    "TicTac.C121_integral",
    "TicTac.C121_bin"
   ],
   "note": "Exact real arithmetic: rounding inside the loop is not modelled (in doubles the stopping test at 3e-16 relies on the iterates becoming stationary to within one unit in the last place). M_PI stands for pi. The specification (Spec.IsGauss) does not mention Legendre polynomials and is shown to determine the rule."
  },
  {
   "property": "C122",
   "status": "proved",
   "theorems": [
    "TicTac.C122_even",
    "TicTac.C122_points",
    "TicTac.C122_integral",
    "TicTac.C122_odd",
    "TicTac.C122_one"
   ],
   "note": "Exact real arithmetic; the Fortran pi is taken as pi. C122_odd is an observed defect of the routine that no caller reaches."
  },
  {
   "property": "C123",
   "status": "proved",
   "theorems": [
    "TicTac.C123_mesh",
    "TicTac.C123_points",
    "TicTac.C123_integral",
    "TicTac.C123_quad_exists",
    "TicTac.C123_quad"
   ],
   "note": "Exact real arithmetic; gsl_sf_legendre_Pl is taken at its documented meaning on [-1,1]. Strengthens C88 (which says what a delivered mesh is) and discharges the hypotheses xIn and zIn of C85-C87."
  },
  {
   "property": "C124",
   "status": "proved",
   "theorems": [
    "TicTac.C124_angular",
    "TicTac.C124_force",
    "TicTac.C124_digits"
   ],
   "note": "Exact real arithmetic. Uses C121 for the mesh and C30 for the combination of the integrals."
  },
  {
   "property": "C125",
   "status": "proved",
   "theorems": [
    "TicTac.C125_one_pion",
    "TicTac.C125_leading"
   ],
   "note": "Exact real arithmetic. Uses C122 for the mesh and C93 for the projection. Two-pion exchange stays a quadrature here; Idaho_N3LO (whose pion-photon term has a logarithm) is excluded."
  },
  {
   "property": "C126",
   "status": "proved",
   "theorems": [
    "TicTac.C126_elastic_reads",
    "TicTac.C126_elastic_lossless",
    "TicTac.C126_breakup_reads",
    "TicTac.C126_breakup_unique"
   ],
   "note": "Rests on the contract of operator<< for doubles stated in Model/Format (correct rounding to 17 digits). The text of the deuteron energy (8 digits) is left open. The headings always name nine amplitudes (C91)."
  },
  {
   "property": "C127",
   "status": "proved",
   "theorems": [
    "TicTac.C127_walk",
    "TicTac.C127_leading",
    "TicTac.C127_fixed",
    "TicTac.C127_meshes"
   ],
   "note": "Exact real arithmetic. Composition of C115 with C23, C94, C122, C123 and C125. Left open: LAPACK and GSL contracts, orders of threads, dimension up to 2^28, a spectrum without degeneracy, and the early stop of the iterative solver with breakup (C77, C116)."
  },
  {
   "property": "C128",
   "status": "proved",
   "theorems": [
    "TicTac.C128_lab_to_com",
    "TicTac.C128_energies",
    "TicTac.C128_com_to_lab"
   ],
   "note": "Operations in the order of the C++ expressions; the contract of the arithmetic unit (Spec/Double, IEEE) is a hypothesis, met by the unit that rounds to a nearest double (roundFpu_ieee). No fused operations, as in the makefile."
  },
  {
   "property": "C129",
   "status": "proved",
   "theorems": [
    "TicTac.C129_increasing",
    "TicTac.C129_near",
    "TicTac.C129_bins"
   ],
   "note": "Contracts of the arithmetic unit and of the library are hypotheses (Spec/Double: IEEE, Libm), shown to be satisfiable by roundFpu."
  },
  {
   "property": "C130",
   "status": "proved",
   "theorems": [
    "TicTac.C130_on_shell",
    "TicTac.C130_bracketed",
    "TicTac.C130_own_grid"
   ],
   "note": "Contracts of the arithmetic unit and of tan/pow are hypotheses (Spec/Double), shown to be satisfiable; example: 30 bins, scale 200 MeV, sparseness 2."
  },
  {
   "property": "C131",
   "status": "proved",
   "theorems": [
    "TicTac.C131_messages",
    "TicTac.C131_stopped",
    "TicTac.C131_help",
    "TicTac.C131_unknown_reported",
    "TicTac.C131_silent",
    "TicTac.C131_same_result"
   ],
   "note": "Messages are modelled by the function that prints them and the text they show; the fixed wording is not. The parser with messages is shown to compute the same parameters as the parser of C08-C12."
  },
  {
   "property": "C132",
   "status": "proved",
   "theorems": [
    "TicTac.C132_inside",
    "TicTac.C132_run",
    "TicTac.C132_counter",
    "TicTac.C132_counter_overflow",
    "TicTac.C132_before_first",
    "TicTac.C132_zero_threads",
    "TicTac.C132_shares",
    "TicTac.C132_solver_threads",
    "TicTac.C132_example"
   ],
   "note": "Access lists each place that indexes one of 40 arrays with all indices its loops can produce; arrLen the allocated lengths. C132_run derives the hypotheses from the user's input. Not listed: setup of the free wave packets, sparse-format buffers (C15, C66, C67), text output, code switched off in the source. Exact integers (32-bit overflow: C59, C118)."
  },
  {
   "property": "C133",
   "status": "proved",
   "theorems": [
    "TicTac.C133_safe",
    "TicTac.C133_stopped",
    "TicTac.C133_remaining",
    "TicTac.C133_growth",
    "TicTac.C133_exists",
    "TicTac.C133_faults",
    "TicTac.C133_example",
    "TicTac.C133_stopped_example"
   ],
   "note": "Arrays inside the interactions, HDF5, GSL and LAPACK are not included, nor is the freeing of what the system reclaims at exit. Pointers held in the table of deuteron states are not followed. Indices inside arrays: C132."
  },
  {
   "property": "C134",
   "status": "proved",
   "theorems": [
    "TicTac.C134_race",
    "TicTac.C134_order",
    "TicTac.C134_merge",
    "TicTac.C134_files",
    "TicTac.C134_files_example",
    "TicTac.C134_race_example",
    "TicTac.C134_order_example"
   ],
   "note": "Assignments are atomic and sequentially consistent. Not modelled: what GSL, BLAS and HDF5 share; calls from several threads at once (C134_files) are allowed by HDF5 only if it was built thread-safe. Regions of code never reached (dense P123, stored kernel, interpolation) are left out. That the accesses are inside the arrays: C132."
  },
  {
   "property": "C135",
   "status": "proved",
   "theorems": [
    "TicTac.C135_no_points",
    "TicTac.C135_read",
    "TicTac.C135_example"
   ],
   "note": "Real arithmetic, GSL and HDF5 by contract as in C85 and C87. That arrays of zero elements (`double q[0]` in roots, datasets of length zero) do no harm is assumed, as the C++ standard does not say it of the former."
  }
 ]
}