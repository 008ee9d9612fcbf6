m("C01","proved",["C01_basis_exact","C01_rejects_iff"])
m("C02","proved",["C02_no_duplicates"])
m("C03","proved",["C03_channels_contiguous"])
m("C04","proved",["C04_deuteron_channels","C04_no_deuteron_when_J0"],"for J_2N_max=0 no channel has a deuteron state")
m("C56","partial",["C56_construction_reads_out_of_range","C56_in_range_after_push"],"false of the code: negation proved for every accepted truncation; the same reads are in range after the final push_back")
m("C57","partial",["C57_banner_parity_wrong"],"false of the code in every channel; negation proved")
m("C05","proved",["C05_slots_in_range","C05_slot_shared_iff"])
m("C06","partial",["C06_slots_distinct","C06_slot_out_of_range"],"range claim false of the code for every J_2N_max>=2: negation proved; distinctness proved for all, range for J_2N_max<=1")
m("C07","partial",["C07_no_tensor_with_isospin_breaking_stops","C07_tensor_on_runs"],"false of the code: with the default isospin flag every tensor_force=false run stops; negation proved for every truncation")
m("C34","proved",["C34_each_channel_once","C34_potential_each_channel_once"])
m("C20","proved",["C20_state_index","C20_state_index_decode","C20_overlap_index","C20_phi_index","C20_plm_index","C20_U_index","C20_V_uncoupled_index","C20_V_coupled_index","C20_Atilde_index","C20_packed_index"])
m("C53","proved",["C53_clebsch_lookup","C53_sixj_index","C53_sixj_lookup"])
m("C59","partial",["C59_overflow_unreported","C59_overflow_small"],"false of the code: negation proved; behaviour for lmax<=19 proved")
m("C60","proved",["C60_prestored_G_eq_direct"],"GSL coefficient functions are parameters")
m("C08","proved",["C08_last_assignment_wins","C08_integer_value","C08_well_formed_accepted","C08_readme_default_differs"],"README's default for Np_WP (30) differs from the code (50): proved as C08_readme_default_differs")
m("C09","partial",["C09_float_for_int_accepted","C09_flag_wrong_type_stops","C09_int_value_starts_with_literal"],"false of the code (integer keys accept trailing garbage): negation proved")
m("C10","partial",["C10_short_argument_throws","C10_exception_only_from_numbers"],"false of the code: negation proved for every argument shorter than 4 characters")
m("C11","partial",["C11_txt_value_lost","C11_energy_file_example","C11_assignment"],"false of the code for values ending in .txt: negation proved")
m("C12","proved",["C12_accepted_constraints","C12_accepts_iff"])
m("C54","partial",["C54_error_reports_success","C54_status_nonzero_iff"],"false of the code: negation proved")
m("C13","proved",["C13_split_equals_single"])
m("C14","proved",["C14_U_file_injective","C14_U_breakup_file_injective","C14_P123_file_injective","C14_P123_subfile_injective","C14_kinds_distinct","C14_jobs_distinct_files"])
m("C24","partial",["C24_custom_q_rejected","C24_grid_sources"],"false of the code (custom q grid only with custom p grid): negation proved")
m("C25","partial",["C25_long_file_overflows","C25_short_file_safe"],"false of the code for files with more than N+1 lines: negation proved")
m("C49","partial",["C49_two_channel_header_wrong","C49_columns"],"false of the code for two deuteron channels: negation proved")
m("C50","proved",["C50_rectangular_file_read"])
m("C51","partial",["C51_range_outside_file","C51_range"],"false of the code: negation proved")
m("C52","partial",["C52_breakup_write_out_of_range","C52_breakup_write"],"false of the code when there are fewer energies than deuteron channels: negation proved")
m("C61","partial",["C61_long_folder_overflows","C61_name_copied_exactly"],"false of the code: negation proved")
m("C62","partial",["C62_energy_file_not_settable","C62_energy_file_in_list"],"false of the code: negation proved")
m("C63","partial",["C63_missing_parameter_file_crashes","C63_nonempty_file"],"false of the code: negation proved")
m("C64","partial",["C64_bad_channel_index_unreported","C64_valid_channel_index"],"false of the code: negation proved")
m("C15","proved",["C15_result_is_matrix","C15_schedule_independent","C15_no_error"])
m("C16","partial",["C16_recovery_reads_nothing","C16_recovery_partial"],"false of the code for dense dimensions up to 5792: negation proved")
m("C19","proved",["C19_sort_preserves","C19_csc_columns","C19_csr_rows"])
m("C21","partial",["C21_coo_to_dense_fails","C21_dense_to_coo"],"COO to dense is false of the code: negation proved")
m("C65","proved",["C65_buffer_in_range","C65_nothing_lost"])
m("C17","proved",["C17_roundtrip"])
m("C18","proved",["C18_mismatch_rejected"])
m("C66","partial",["C66_other_settings_accepted","C66_other_basis_rejected"],"false of the code: negation proved")
m("C67","partial",["C67_failed_write_unreported","C67_failed_write"],"false of the code: negation proved")
m("C68","partial",["C68_only_last_set_kept","C68_single_set","C68_other_settings_apart"],"false of the code: negation proved")
m("C31","partial",["C31_component_selected","C31_unphysical_stops","C31_potential_symmetric","C31_LO_symmetric"],"Selection proved for all pairs; matrix symmetry proved except for isospin breaking + midpoint approximation, where the wrong components are used for 1S0 (see C32).")
m("C32","partial",["C32_potential_matrix","C32_midpoint_breaking_loses_1S0","C32_midpoint_breaking_wrong"],"Whole stored matrix proved correct for every truncation, grid and interaction, except isospin breaking with midpoint_approx: there the property is false of the code (negation proved).")
m("C55","proved",["C55_reorder","C55_permutation"],"")
m("C22","proved",["C22_lab_roundtrip","C22_com_roundtrip","C22_lab_to_com_strict","C22_com_to_lab_strict","C22_q_energy","C22_p_energy"],"Exact real arithmetic.")
m("C23","proved",["C23_grid_strict","C23_bins_partition"],"Exact real arithmetic.")
m("C26","proved",["C26_layout","C26_mapped_rule","C26_midpoint"],"Exact real arithmetic.")
m("C29","proved",["C29_legendre","C29_table","C29_properties"],"")
m("C33","proved",["C33_bin_average","C33_between"],"")
m("C69","proved",["C69_newton_stop","C69_gauss_exact"],"Exact real arithmetic; termination and distinct nodes are proved in C121.")
m("C70","proved",["C70_relativistic"],"")
m("C27","proved",["C27_permuted_momenta","C27_cos_physical"],"Exact real arithmetic; stated for three momentum vectors in any real inner product space.")
m("C28","proved",["C28_incompatible_zero"],"")
m("C58","proved",["C58_overlap_safe","C58_overlap_sound"],"")
m("C71","proved",["C71_radial_integral"],"")
m("C35","proved",["C35_reorder"],"")
m("C36","proved",["C36_uncoupled","C36_uncoupled_bound","C36_coupled","C36_coupled_bound","C36_two_bins_bound_disordered"],"Needs at least 2 bins (3 in the deuteron channel); the last theorem shows the claim false for 2 bins there. N=1 reads out of bounds in C and is excluded.")
m("C37","proved",["C37_check","C37_run"],"LAPACK by contract (LapackContract, shown satisfiable by exists_lapack).")
m("C72","proved",["C72_stored_wave_packets","exists_lapack"],"LAPACK by contract; boundaries part for non-degenerate, non-zero spectra and at least 3 bins.")
m("C41","proved",["C41_resolvent_bc","C41_imaginary_part"],"Exact real arithmetic; energies on a bin edge excluded (the C code returns infinities there).")
m("C42","proved",["C42_resolvent_cc","C42_imaginary_part"],"Exact real arithmetic; corner energies excluded (the C code returns NaN there).")
m("C73","proved",["C73_resolvent_array","resolventArray_eq"],"LAPACK by contract; non-degenerate non-zero spectra, at least 3 bins.")
m("C38","partial",["C38_bracketed","C38_outside_dropped"],"false of the code outside the first/last midpoint: negation proved")
m("C39","proved",["C39_on_shell_rows","C39_indices","C39_narrow_bin_wrong"],"Exact real arithmetic; the index claim has the stated width condition, and the last theorem shows it is needed.")
m("C40","partial",["C40_recorded_cells","C40_recorded_exactly","C40_offsets","C40_index_minus_one"],"false of the code: negation proved (index -1 recorded)")
m("C74","partial",["C74_off_shell_cell_recorded","C74_common_cell_recorded_partial"],"false of the code: negation proved")
m("C75","proved",["C75_on_shell_cut"],"Exact real arithmetic.")
m("C43","proved",["C43_tables_exist","C43_pvc_column","C43_kernel_column","C43_kernel_rows","C43_program_channels"],"Exact real arithmetic; dgemm by its contract; tensor force on; rows for every order of the worker iterations.")
m("C46","proved",["C46_is_pade","C46_every_pade","C46_no_value_iff","C46_exact_on_rational","C46_breakdown"],"Exact complex arithmetic; the determinants are those of C76.")
m("C76","proved",["C76_determinant"],"zgetrf by its contract.")
m("C44","proved",["C44_neumann_terms","C44_program"],"Exact arithmetic, dgemm by its contract, dimension up to 2^28 (beyond it the solver stops, C45_too_large).")
m("C45","partial",["C45_chunks","C45_too_large"],"proved up to dimension 2^28 (the memory size is a constant of the code); beyond that false: negation proved")
m("C47","partial",["C47_elastic_complete","C47_complete_unless_count","C47_count_stop_unassigned","C47_breakup_unassigned"],"complete without breakup; with breakup false: negation proved, with the exact condition")
m("C77","partial",["C77_smallest_change_partial","C77_small_element_not_resummed","C77_wrong_by_half"],"false of the code: negation proved")

m("C48","proved",["C48_dense","C48_dense_exists","C48_solve_MM","C48_terminating","C48_pade_agrees"],"Exact arithmetic; zgetrf/zgetrs by their contracts. Also: approximants of order at least the dimension equal the direct solution.")
m("C78","partial",["C78_dense_breakup_zero","C78_iterative_partial"],"false with the direct solver: negation proved; iterative solver: proved for runs that do not stop on the count")

m("C30","proved",["C30_isospin","C30_isospin_values","C30_one_pion_exchange","C30_leading_order","C30_hermitian","C30_table_end","C30_regular"],"Exact arithmetic; any quadrature rule. The table of Legendre polynomials ends at J=100 (documented by the program); beyond it the routine reads outside its table (C30_table_end).")
m("C79","proved",["C79_yukawa","C79_only_S_waves","C79_hermitian"],"Exact arithmetic.")

m("C80","proved",["C80_direct","C80_iterative","C80_completes"],"Exact arithmetic. Hypotheses collected in RunHyps: Hermitian interaction, tensor force on, quadrature or no isospin breaking (C32), nondegenerate two-nucleon spectra, LAPACK's contract; the permutation matrix is an input (any list of entries in range). The iterative statement is for runs without breakup. A complete run meeting all hypotheses is given in Props/RunExample.lean.")

m("C81","proved",["C81_breakup_table","C81_run"],"Exact arithmetic; keys of the maps unbounded. C81_run: the hypotheses hold of what the on-shell search and the state space give, and the table is made. Example run: bu_example.")
m("C82","partial",["C82_headings_distinct","C82_same_heading","C82_example"],"Proved without isospin breaking. With isospin breaking the statement is false: C82_same_heading (two columns with equal headings), C82_example (a run in which it happens).")
m("C83","partial",["C83_bound_bin_recorded","C83_negative_is_neighbour_partial"],"The full statement is false: C83_bound_bin_recorded. Proved: a recorded bin of negative energy is never itself on shell but the lower neighbour of one that is.")
m("C84","partial",["C84_cell_listed_twice","C84_one_cell_distinct_partial"],"The full statement is false: C84_cell_listed_twice. Proved: what is recorded on account of one on-shell cell is recorded once.")

m("C85","proved",["C85_permutation_matrix","C85_completes"],"Exact arithmetic; GSL's functions satisfy GslContract (selection rules, array layout); quadrature points inside their intervals (hypothesis). Example functions and run with a non-zero matrix in Props/PermutationExample.lean.")
m("C86","proved",["C86_isospin"],"As C85.")
m("C87","proved",["C87_computed","C87_read","C87_direct","C87_iterative"],"Exact arithmetic; hypotheses of C80 and C85 except those on the permutation matrix, which are proved. A complete run is given in Props/PermutationExample.lean.")
m("C88","proved",["C88_phi_mesh","C88_phi_exact","C88_points_inside"],"Exact arithmetic; gsl_sf_legendre_Pl is the Legendre polynomial on [-1,1] and stops outside; convergence of the Newton iteration itself is not claimed. gaussMesh_one is a complete one-point run.")
m("C89","partial",["C89_direct","C89_iterative_partial","C89_memory_dependent"],"Direct solver: proved in full. Iterative solver without breakup: proved for machines that agree in the one memory cell before the array of approximants; C89_memory_dependent proves that without this condition the claim is false of the code (PA[-1] is read). With breakup the acceptance test of an element reads its neighbour's cell as well and is not covered. Two different machines are exhibited in Props/ReproExample.lean.")

m("C90","proved",["C90_row_reads_back","C90_row_lossless","C90_elastic_row"],"operator<< enters as a contract: correct rounding to 17 significant digits, any choice at ties. Infinite and not-a-number entries are printed as inf/nan and are outside the statement.")
m("C91","partial",["C91_minus_zero_malformed","C91_wellformed"],"False of the code for minus zero: negation proved; proved for all other finite amplitudes.")
m("C92","partial",["C92_false","C92_grids_collide","C92_boundary"],"False of the code: negation proved; the error bound 5e-9 is proved for every line.")

m("C93","partial",["C93_partial_waves","C93_cut","C93_stored_matrix"],"Exact arithmetic, angular mesh any rule with points in [-1,1]; the loop functions of two-pion exchange are an arbitrary function of (constants, nucleon mass, q^2, k^2): their closed forms are not modelled. J above 38 reads beyond the Legendre table and is excluded. Stored matrices under the conditions of C32.")
m("C94","partial",["C94_hermitian","C94_matrix_symmetric"],"Element level: proved in full (also where the table ends). Stored matrices under the conditions of C31/C32 (tensor force on, no midpoint with isospin breaking).")

m("C95","partial",["C95_scope","C95_effect","C95_unused"],"J at most 38 (end of the Legendre table), angular mesh any rule with points in [-1,1], loop functions arbitrary, exact arithmetic. Columns of pion-nucleon constants act in all waves: no claim on their effect.")
m("C96","partial",["C96_walk_uses_line","C96_extra_columns","C96_missing_columns","C96_missing_columns_overrun"],"First part proved; that wrong lines are rejected is false: proved what happens instead.")
m("C97","partial",["C97_walk_ignored"],"False of the code: negation proved.")
m("C98","partial",["C98_builtin","C98_uninitialised"],"Proved for N2LOopt and Idaho_N3LO; negation proved for the four IS models.")
# restated claims: exact conditions proved
def up(p,add,note,drop=()):
    for c in C:
        if c['property']==p:
            c['status']='proved'
            c['theorems']=[t for t in c['theorems'] if t.split('.')[-1] not in drop]+["TicTac."+t for t in add if "TicTac."+t not in c['theorems']]
            c['note']=note
_n="The unconditional expectation is false of the code (counterexample proved); the exact condition is proved."
up("C06",["C06_fits_exactly"],_n)
up("C07",["C07_runs_exactly"],_n)
up("C09",["C09_integer_exactly","C09_accepted_exactly"],_n)
up("C10",["C10_exception_exactly"],_n)
up("C11",[],_n)
up("C21",[],"COO to dense is broken for every input; dense to COO is right for every input.")
up("C24",["C24_custom_q_exactly"],_n)
up("C25",["C25_overflow_exactly"],_n)
up("C31",[],"Symmetry in every mode, tensor force on.")
up("C32",["C32_matrix_exactly","C32_all_modes"],_n)
up("C38",["C38_bracketed_exactly"],_n)
up("C40",[],"Exact set of recorded cells; the expectation that all indices are inside the grid is false (C40_index_minus_one).")
up("C45",["C45_chunks_exactly"],_n)
up("C47",[],_n)
up("C49",["C49_headings_exactly"],_n)
up("C51",["C51_range_exactly"],_n)
up("C52",["C52_writes_exactly"],_n)
up("C54",[],_n)
up("C56",[],"The out-of-range read happens for every accepted truncation.")
up("C57",[],"Wrong in every channel.")
up("C59",["C59_reported_exactly"],_n)
up("C61",[],_n)
up("C62",[],_n)
up("C63",["C63_division_exactly"],_n)
up("C64",["C64_job_exactly"],_n)
up("C66",["C66_accepted_exactly"],_n)
up("C67",["C67_exactly"],_n)
up("C68",["C68_kept_exactly"],_n)
up("C82",["C82_same_heading_exactly"],_n)
up("C91",["C91_wellformed_exactly"],_n)
up("C92",["C92_determined"],_n)
up("C93",[],"Exact arithmetic, angular mesh any rule with points in [-1,1]; the loop functions of two-pion exchange are an arbitrary function of (constants, nucleon mass, q^2, k^2).")
up("C94",[],"Element level also where the Legendre table ends.")
up("C95",[],"Angular mesh any rule with points in [-1,1], loop functions arbitrary, exact arithmetic. Columns of pion-nucleon constants act in all waves: no claim on their effect.")
up("C96",[],"Covers all files whose lines have equal numbers of entries.")
up("C97",[],"The walk is ignored for every file and range.")
up("C98",[],"Both halves proved.")

m("C99","proved",["C99_two_pion","C99_potential"],"Exact arithmetic; mesh points of the program's rules are parameters (inside the interval).")
m("C100","proved",["C100_A","C100_L","C100_A_cutoff","C100_L_cutoff"],"")
m("C101","proved",["C101_central"],"")
m("C102","proved",["C102_tail","C102_momenta"],"")
m("C103","proved",["C103_bracket"],"")
m("C104","proved",["C104_defined"],"")
m("C105","proved",["C105_transverse","C105_strength"],"")
m("C106","proved",["C106_versions"],"")
m("C107","proved",["C107_history"],"")

up("C74",["C74_exactly"],_n,drop=("C74_common_cell_recorded_partial",))
up("C83",["C83_exactly"],_n,drop=("C83_negative_is_neighbour_partial",))
up("C84",["C84_exactly"],_n,drop=("C84_one_cell_distinct_partial",))

up("C16",["C16_exactly"],_n+" Floating point in the estimate is replaced by exact rationals.",drop=("C16_recovery_partial",))
up("C77",["C77_exactly"],_n,drop=("C77_smallest_change_partial",))
up("C78",["C78_exactly"],"Exact rule of the iterative solver; the direct solver reports zeros.",drop=("C78_iterative_partial",))
up("C89",["C89_iterative"],"Direct solver in full; iterative solver without breakup, for machines that agree in the one memory cell before the array of approximants; C89_memory_dependent proves that this condition is needed. No claim for the iterative solver with breakup. Two different machines are exhibited in Props/ReproExample.lean.",drop=("C89_iterative_partial",))
up("C99",["C103_bracket"],"Exact arithmetic; mesh points of the program's rules are parameters (inside the interval). The spectral functions contain the program's bracket function, which is the published one by C103_bracket (exactly above 0.05, to 5.5e-13 below).")

m("C108","proved",["C108_partial_waves","C108_cut","C108_stored_matrix","C108_accuracy","C108_stored_accuracy"],"Exact if the quadrature (SEX, CE1, FDEXP) is exact; C108_accuracy: with FDEXP as written and errors up to eps in SEX and CE1 the deviation is at most K (eps + e^-100), K depending on momenta and wave only. All else of pnijm.f is modelled; exact arithmetic.")
m("C109","proved",["C109_hermitian","C109_symmetric_matrix"],"Any values of the quadrature routines as functions of their arguments.")
m("C110","proved",["C110_ce1"],"Exact arithmetic; the 34 coefficients are those of the source. The defect r' - r + 1/x of each rational piece is bounded by a Bernstein check in the kernel (decide +kernel on rationals, sound for all x by nonnegOn_sound).")
m("C111","proved",["C111_in_every_history","C111_beyond_table","C111_zeroed_tables"],"Exact arithmetic. CE1 is the model of C110, not assumed. The choice of the starting index of the backward recursion (GRENS) is proved to damp the unknown start below 1e-7 for every y in range. SEX with y up to 1e-3 (SMLLEX) and x below 1 (WEX) is not covered.")
m("C112","proved",["C112_small","C112_wave_two","C112_wave_two_propagator","C112_mixed_history"],"Exact arithmetic. QJ99 (hypergeometric series and series in 1/x) is proved to return the Legendre function of the second kind within 1.34e-7 of its value for every wave. Two defects are proved as they are. The branches for x below 1 (WEX) and negative x are not modelled.")
m("C113","proved",["C113_same_terms","C113_in_every_history","C113_entries_used","C113_fixed_wave","C113_new_wave","C113_beyond_tables","C113_beyond_tables_seven"],"Exact arithmetic. CE1 is the modelled routine of C110. Leaving the tables is the outcome none of the model; the defect for J of 5 and more is proved as it is.")
m("C114","proved",["C114_history_free","C114_sequence","C114_other_charge"],"The quadratures SEX, CE1 and FDEXP are functions of their arguments here; the memory of SEX is the subject of C113.")
m("C115","proved",["C115_walk","C115_fixed","C115_split"],"Hypotheses per solve as in C80/C87 (SolveHyps): tensor force, at least three p bins, nondegenerate two-nucleon spectra, LAPACK contract, exact real arithmetic; with breakup the iterative solver must not stop early by its count of accepted elements (see C47), the array of breakup amplitudes is large enough (C52); C115_split (elastic files; iterative solver without breakup) assumes one solution (direct) or equal content of the cell read before the array (iterative, see C89).")
m("C116","proved",["C116_iterative","C116_direct_zero","C116_completes"],"Hypotheses per channel as in C80/C87. Cells recorded outside the grids (C82-C84) are excluded: their amplitudes are read from other elements. C116_direct_zero and the count hypothesis record defects: the direct solver never fills the breakup array, and an early stop by the shared counter (C47) leaves elements unconverged.")
m('C117',"proved",['C117_open', 'C117_fine_grid', 'C117_run'],'The expected property (recorded cells conserve energy) is false of the code; the theorems say exactly which cells do. C117_run is the statement for a whole channel calculation.')
m('C118',"proved",['C118_exact', 'C118_exactly', 'C118_overlap_table', 'C118_square_grid', 'C118_usual_sizes'],'Expressions with a size_t operand are 64-bit and not listed; index expressions of the Clebsch-Gordan table are not listed. Signed overflow is undefined in C++; wrapping is assumed for what happens beyond the bounds.')
m('C119',"proved",['C119_record', 'C119_lossless', 'C119_scale_collides', 'C119_not_an_input_file', 'C119_rerun'],'Conversion of a double by operator<< (fixed, 3 decimals) and stod enter as contracts. Strings containing an end of line are excluded. The copy of the record printed on the screen is not modelled.')
m('C120',"proved",['C120_file', 'C120_path', 'C120_matches', 'C120_request', 'C120_copy', 'C120_end_rows', 'C120_not_midpoints', 'C120_midpoints_iff', 'C120_between', 'C120_narrow_below', 'C120_example'],'Values in exact arithmetic; C120_copy assumes the stored doubles are accurate to 1e-9 and rows differ by more than 1e-8. Conversion of a double by operator<< is a contract.')
m('C121',"proved",['C121_gauss', 'C121_shape', 'C121_integral', 'C121_bin'],'Exact real arithmetic: rounding inside the loop is not modelled (in doubles the stopping test at 3e-16 relies on the iterates becoming stationary to within one unit in the last place). M_PI stands for pi. The specification (Spec.IsGauss) does not mention Legendre polynomials and is shown to determine the rule.')
m('C122',"proved",['C122_even', 'C122_points', 'C122_integral', 'C122_odd', 'C122_one'],'Exact real arithmetic; the Fortran pi is taken as pi. C122_odd is an observed defect of the routine that no caller reaches.')
m('C123',"proved",['C123_mesh', 'C123_points', 'C123_integral', 'C123_quad_exists', 'C123_quad'],'Exact real arithmetic; gsl_sf_legendre_Pl is taken at its documented meaning on [-1,1]. Strengthens C88 (which says what a delivered mesh is) and discharges the hypotheses xIn and zIn of C85-C87.')
m('C124',"proved",['C124_angular', 'C124_force', 'C124_digits'],'Exact real arithmetic. Uses C121 for the mesh and C30 for the combination of the integrals.')
m('C125',"proved",['C125_one_pion', 'C125_leading'],'Exact real arithmetic. Uses C122 for the mesh and C93 for the projection. Two-pion exchange stays a quadrature here; Idaho_N3LO (whose pion-photon term has a logarithm) is excluded.')
m('C126',"proved",['C126_elastic_reads', 'C126_elastic_lossless', 'C126_breakup_reads'],'Rests on the contract of operator<< for doubles stated in Model/Format (correct rounding to 17 digits). The text of the deuteron energy (8 digits) is left open. The headings always name nine amplitudes (C91).')
m('C127',"proved",['C127_walk', 'C127_leading', 'C127_fixed', 'C127_meshes'],'Exact real arithmetic. Composition of C115 with C23, C94, C122, C123 and C125. Left open: LAPACK and GSL contracts, orders of threads, dimension up to 2^28, a spectrum without degeneracy, and the early stop of the iterative solver with breakup (C77, C116).')
m('C128',"proved",['C128_lab_to_com', 'C128_energies', 'C128_com_to_lab'],'Operations in the order of the C++ expressions; the contract of the arithmetic unit (Spec/Double, IEEE) is a hypothesis, met by the unit that rounds to a nearest double (roundFpu_ieee). No fused operations, as in the makefile.')
m('C129',"proved",['C129_increasing', 'C129_near', 'C129_bins'],'Contracts of the arithmetic unit and of the library are hypotheses (Spec/Double: IEEE, Libm), shown to be satisfiable by roundFpu.')
up('C126',['C126_breakup_unique'],'Rests on the contract of operator<< for doubles stated in Model/Format (correct rounding to 17 digits). The text of the deuteron energy (8 digits) is left open. The headings always name nine amplitudes (C91).')
m('C130',"proved",['C130_on_shell', 'C130_bracketed', 'C130_own_grid'],'Contracts of the arithmetic unit and of tan/pow are hypotheses (Spec/Double), shown to be satisfiable; example: 30 bins, scale 200 MeV, sparseness 2.')
m('C131',"proved",['C131_messages', 'C131_stopped', 'C131_help', 'C131_unknown_reported', 'C131_silent', 'C131_same_result'],'Messages are modelled by the function that prints them and the text they show; the fixed wording is not. The parser with messages is shown to compute the same parameters as the parser of C08-C12.')
m('C132',"proved",['C132_inside', 'C132_run', 'C132_counter', 'C132_counter_overflow', 'C132_before_first', 'C132_zero_threads', 'C132_shares', 'C132_solver_threads', 'C132_example'],"Access lists each place that indexes one of 40 arrays with all indices its loops can produce; arrLen the allocated lengths. C132_run derives the hypotheses from the user's input. Not listed: setup of the free wave packets, sparse-format buffers (C15, C66, C67), text output, code switched off in the source. Exact integers (32-bit overflow: C59, C118).")
m('C133',"proved",['C133_safe', 'C133_stopped', 'C133_remaining', 'C133_growth', 'C133_exists', 'C133_faults', 'C133_example', 'C133_stopped_example'],'Arrays inside the interactions, HDF5, GSL and LAPACK are not included, nor is the freeing of what the system reclaims at exit. Pointers held in the table of deuteron states are not followed. Indices inside arrays: C132.')
m('C134',"proved",['C134_race', 'C134_order', 'C134_merge', 'C134_files', 'C134_files_example', 'C134_race_example', 'C134_order_example'],'Assignments are atomic and sequentially consistent. Not modelled: what GSL, BLAS and HDF5 share; calls from several threads at once (C134_files) are allowed by HDF5 only if it was built thread-safe. Regions of code never reached (dense P123, stored kernel, interpolation) are left out. That the accesses are inside the arrays: C132.')
m('C135',"proved",['C135_no_points', 'C135_read', 'C135_example'],'Real arithmetic, GSL and HDF5 by contract as in C85 and C87. That arrays of zero elements (`double q[0]` in roots, datasets of length zero) do no harm is assumed, as the C++ standard does not say it of the former.')
