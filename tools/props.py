import json
P=[]
def p(title,statement,quant,why,anchors):
    P.append(dict(id="C%02d"%(len(P)+1),title=title,statement=statement,quantifier=quant,why_tests_cant=why,anchors=anchors))
p("Partial-wave basis is exactly the set of allowed three-nucleon states",
 "For any J_2N_max >= 0, positive odd two_J_3N_max and any isospin_breaking_1S0 flag, the basis built by construct_symmetric_pw_states contains a tuple (L,S,J,T,l,2j,2J3,2T3,P) if and only if it obeys the angular-momentum and isospin coupling rules, the generalised Pauli rule (L+S+T odd), P=(-1)^(L+l), J<=J_2N_max, 2J3 odd and <= two_J_3N_max, and either 2T3=1, or (isospin breaking on) 2T3=3 with the pair in 1S0.",
 "all truncations J_2N_max, two_J_3N_max, both flag values, all nine-tuples of integers",
 "the basis is an unbounded family indexed by the truncations; a test can only compare a few tables",
 ["CPP/make_pw_symm_states.cpp: construct_symmetric_pw_states"])
p("No partial-wave state is listed twice",
 "For every truncation and flag the nine arrays never describe the same state at two different positions.",
 "all truncations, all pairs of positions","unbounded family of truncations",
 ["CPP/make_pw_symm_states.cpp: construct_symmetric_pw_states"])
p("3N-channels are contiguous, non-empty, ordered blocks",
 "For every accepted truncation there are exactly two_J_3N_max+1 three-nucleon channels; chn_3N_idx_array starts at 0, is strictly increasing, ends at Nalpha; all states in one block share (J3,P) and two states in different blocks differ in (J3,P); channel c has 2J3 = 2*(c/2)+1 and P=+1 for even c and -1 for odd c.",
 "all truncations, all channels","unbounded family of truncations; channel_idx (cluster runs) depends on the numbering",
 ["CPP/make_pw_symm_states.cpp: construct_symmetric_pw_states","CPP/main.cpp: main"])
p("Every elastic channel is found and labelled unambiguously",
 "find_deuteron_channels returns, for every 3N channel, exactly the positions (relative to the channel start) of the states whose pair has deuteron quantum numbers 3S1,T=0; for J_2N_max>=1 there are exactly 2 of them for J3=1/2 and exactly 3 for J3>=3/2, so the nine header labels U00..U22 of the output file are enough for every channel.",
 "all truncations and all channels","unbounded family of truncations",
 ["CPP/run_organizer.cpp: find_deuteron_channels","CPP/disk_io_routines.cpp: store_U_matrix_elements_txt","CPP/constants.h"])
p("Two-nucleon storage slots are in range and not shared between different interactions (tensor force on)",
 "With tensor_force=true, for every state in the basis the slot used for its 2N potential, SWP energies and coefficient matrix lies inside the array allocated in main, and two basis states get the same slot exactly when they belong to the same 2N interaction channel (same S and J, and same L unless both are tensor-coupled; 1S0 is its own coupled channel under isospin breaking).",
 "all truncations, both isospin flags, all pairs of basis states","index arithmetic over an unbounded family; an aliasing slot silently mixes interactions",
 ["CPP/make_pw_symm_states.cpp: unique_2N_idx","CPP/main.cpp: main (array sizes)"])
p("Two-nucleon storage slots with tensor_force=false",
 "With tensor_force=false and isospin_breaking_1S0=false, every basis state gets a slot inside the allocated array and different 2N channels get different slots.",
 "all J_2N_max","out-of-range writes only appear at sizes a unit test may not use (false of this code for J_2N_max>=2)",
 ["CPP/make_pw_symm_states.cpp: unique_2N_idx","CPP/main.cpp: main (array sizes)"])
p("tensor_force=false can be combined with every documented isospin flag",
 "Setting tensor_force=false (a documented option) leads to a run for either value of isospin_breaking_1S0.",
 "all truncations, both flags","an unconditional abort for a flag combination is a fact about all inputs (false of this code)",
 ["CPP/make_pw_symm_states.cpp: unique_2N_idx","CPP/make_potential_matrix.cpp"])
p("Options: last assignment wins, everything else keeps its default",
 "After processing any argument list whose values are well formed, each run parameter equals the last value assigned to its key (in argument order, with input files expanded in place), and every parameter never assigned has its default (as listed in a table of default texts); unknown keys and unrecognised arguments change nothing.",
 "all argument lists and all file contents","unbounded argument and file sequences",
 ["CPP/set_run_parameters.cpp: set_run_parameters, read_and_set_parameter, read_input_file, set_default_values"])
p("A value of the wrong type stops the program",
 "As README states, giving a value of the wrong type for a key stops the program with an error; it is never silently reinterpreted.",
 "all keys, all value strings","all strings (false of this code: stoi/stod accept a numeric prefix; booleans are checked exactly)",
 ["CPP/set_run_parameters.cpp: read_and_set_parameter","README.md"])
p("Any command line is handled without an uncaught exception",
 "No argument string makes the option parser throw an unhandled exception or read outside the string; an unrecognised argument is reported and skipped.",
 "all argument strings","all strings (false of this code for arguments shorter than four characters)",
 ["CPP/set_run_parameters.cpp: set_run_parameters"])
p("key=value is an assignment whatever the value",
 "An argument of the form key=value with a known key assigns the value, including file names such as energy_input_file=my.txt.",
 "all known keys, all non-empty values","all strings (false of this code for values ending in .txt, which are taken as the name of an input file)",
 ["CPP/set_run_parameters.cpp: set_run_parameters"])
p("Accepted configurations satisfy the documented constraints",
 "If the option parser returns, then two_J_3N_max is positive and odd, parallel_run implies channel_idx != -1, and the number of threads is at most Nq_WP; conversely any configuration meeting these is accepted unchanged apart from lowering the thread count to Nq_WP.",
 "all configurations","all integers",
 ["CPP/set_run_parameters.cpp: set_run_parameters"])
p("Splitting a run over channels gives the same work as one run",
 "The multiset of (channel, parameter set) jobs, and the set of output file names, of the N_chn separate runs with parallel_run=true, channel_idx=0..N_chn-1 equals that of one run with parallel_run=false; no job is done twice and none is missed.",
 "all truncations, all parameter ranges","unbounded family of channel counts and splits",
 ["CPP/main.cpp: main"])
p("Different work never writes to the same file",
 "Two runs/jobs writing U-matrix or P123 files to the same folder write to different file names whenever they differ in Np_WP, Nq_WP, J3, parity, J_2N_max or parameter-set index (or thread and sequence number for partial P123 files).",
 "all values of the key fields","injectivity of a string encoding over unbounded integers",
 ["CPP/main.cpp: file_identification","CPP/make_permutation_matrix.cpp: fill_P123_arrays, calculate_permutation_matrix_for_all_3N_channels"])
p("The permutation matrix does not depend on threads, schedule or buffer size",
 "For any number of threads, any assignment of rows to threads, any order in which threads process and flush, and any positive buffer size, the P123 that is merged from the partial files and stored is the same row-major list of the non-zero elements of the matrix.",
 "all thread counts, all schedules, all buffer sizes, all matrices","a test runs one schedule; buffer flushing needs gigabytes to trigger",
 ["CPP/make_permutation_matrix.cpp: calculate_permutation_elements_for_3N_channel, read_P123_bin_files / merge"])
p("P123 recovery reproduces the interrupted computation",
 "After a crash between writing the partial files and merging them, a run with P123_recovery=true produces the same P123 as the uninterrupted run.",
 "all problem sizes, all thread counts, all load distributions","crash point and file counts range over all sizes (false of this code: the number of files to read is estimated)",
 ["CPP/make_permutation_matrix.cpp: P123_recovery branch"])
p("Stored P123 reads back exactly",
 "Reading back a P123 file written for the same basis and grid returns the same values, row and column indices and count, for every sparse matrix.",
 "all matrices, all bases and grids","round-trip over all contents (the count is narrowed to a C int on the way)",
 ["CPP/disk_io_routines.cpp: store_sparse_permutation_matrix_for_3N_channel_h5, read_sparse_permutation_matrix_for_3N_channel_h5"])
p("A P123 file made for other parameters is rejected",
 "Reading a P123 file succeeds only if the file's Nalpha, Np_WP, Nq_WP, all bin boundaries, all nine quantum-number arrays agree with those of the current run; otherwise the program stops with an error.",
 "all pairs of (stored, current) bases and grids","all pairs of configurations",
 ["CPP/disk_io_routines.cpp: read_sparse_permutation_matrix_for_3N_channel_h5"])
p("Sorting and compressing P123 preserves the matrix",
 "For every list of sparse elements with in-range indices, sorting to column-major order and converting to CSC (or CSR) gives the same matrix: the elements stored for column c are exactly the input elements with column c, in increasing row order.",
 "all sparse matrices","all sizes and orders",
 ["CPP/General_functions/matrix_routines.cpp: unsorted_sparse_to_coo_col_major_sorter, coo_to_csc_format_converter, coo_to_csr_format_converter"])
p("Flat array layouts are bijections",
 "The flat index of (alpha,q,p) in vectors, of (alpha', q',p') in rows, of (q',p',q,p) in the overlap table, of (row deuteron, column deuteron, energy) in U, and of the upper triangle in the packed Hamiltonian, is a bijection onto the allocated range; decoding recovers the tuple.",
 "all dimensions and all tuples","index arithmetic over unbounded sizes",
 ["CPP/make_permutation_matrix.cpp","CPP/make_resolvent.cpp","CPP/solve_faddeev.cpp","CPP/make_swp_states.cpp"])
p("Dense and COO formats convert into each other",
 "Converting a dense matrix to COO keeps exactly its non-zero elements in row-major order; converting a COO matrix to dense gives back the matrix.",
 "all matrices","all matrices (the COO-to-dense direction is false of this code: it nulls the output pointer)",
 ["CPP/General_functions/matrix_routines.cpp: square_dense_to_sparse_COO_format_converter, square_sparse_COO_to_dense_format_converter"])
p("Kinematic conversions are mutually inverse",
 "lab energy <-> c.m. momentum, c.m. momentum <-> c.m. energy (both Jacobi momenta) are exact inverse pairs on non-negative arguments and strictly increasing, in exact arithmetic.",
 "all non-negative reals, all bound-state energies with positive deuteron mass","continuum of inputs",
 ["CPP/General_functions/kinetic_conversion.cpp"])
p("Wave-packet grids are ordered and start at zero",
 "For every N>=1, positive scale and positive sparseness, the Chebyshev boundaries are 0=b0<b1<...<bN, so the bins partition [0,bN); every momentum below bN lies in exactly one bin.",
 "all N, scale, sparseness, all momenta","continuum of parameters",
 ["CPP/make_wp_states.cpp: make_chebyshev_distribution, make_p_bin_grid, make_q_bin_grid"])
p("A custom q grid is used whenever requested",
 "q_grid_type=custom with a valid file uses that file for the q grid whatever the p grid type.",
 "all combinations of grid types","all combinations (false of this code)",
 ["CPP/make_wp_states.cpp: make_q_bin_grid"])
p("A custom grid file never writes outside the boundary array",
 "A grid file with the wrong number of lines is rejected with an error before any memory outside the N+1 boundaries is written.",
 "all file contents, all N","all files (false of this code for files with more than N+1 lines)",
 ["CPP/disk_io_routines.cpp: read_WP_boundaries_from_txt"])
p("Quadrature points stay in their bin and keep the rule's exactness",
 "For every bin and every quadrature rule on (-1,1), the mapped points lie in the bin, the mapped weights add up to the bin width, and the mapped rule integrates f over the bin exactly whenever the original rule integrates the pulled-back f exactly.",
 "all bins, all rules, all integrands","continuum of inputs",
 ["CPP/General_functions/gauss_legendre.cpp: updateRange_a_b","CPP/make_wp_states.cpp: make_p_bin_quadrature_grids"])
p("The permutation of Jacobi momenta conserves kinetic energy and its angles are physical",
 "For all p,q>=0 and -1<=x<=1 the permuted momenta satisfy pbar^2+3/4 qbar^2=p^2+3/4 q^2, the radicands are non-negative and the two cosines lie in [-1,1] (so the clamping only removes rounding error), whenever the permuted momentum is non-zero.",
 "all real p,q,x","continuum of inputs",
 ["CPP/auxiliary.cpp: pi1_tilde, pi2_tilde, Gtilde_subarray_new"])
p("P123 elements vanish between energetically incompatible cells",
 "If no momenta in the two cells have equal kinetic energy p^2+3/4 q^2 then the computed P123 element between them is exactly zero; skipping such cells is therefore safe.",
 "all cells, all quadrature rules","continuum of inputs",
 ["CPP/auxiliary.cpp: calculate_P123_element_in_WP_basis_mod","CPP/make_permutation_matrix.cpp: pWP_qWP overlap check"])
p("Legendre recursion yields the Legendre polynomials",
 "For every degree n and every x, the recursion used for angular integrals returns P_n(x): P_n(1)=1, parity (-1)^n, and it solves Legendre's differential equation of degree n.",
 "all degrees, all x","infinitely many degrees and points",
 ["CPP/General_functions/legendre.cpp: findRoot, findRoots"])
p("The built-in LO potential is Hermitian and respects isospin",
 "For every J up to the documented limit of 100 and all momenta, exchanging the two momenta transposes the potential: the four diagonal-type elements are symmetric and V(+-)(qi,qo)=V(-+)(qo,qi); the isospin factor is -3 for T=0 and +1 for T=1 where L+S+T is odd.",
 "all J, all momenta","continuum of inputs",
 ["CPP/Interactions/OPEP.cpp: potential, isoFac","CPP/Interactions/chiral_LO_internal.cpp: V"])
p("The right potential component is used for each pair of states",
 "For every bra/ket pair (L',L,S,J) allowed by coupling rules, the element taken from the six-component potential array is the component the array documents for (coupled?,S,L',L relative to J), and the assembled potential matrix of a channel is symmetric when the potential is Hermitian.",
 "all J and all L,L'","unbounded J",
 ["CPP/make_potential_matrix.cpp: extract_potential_element_from_array"])
p("Isospin averaging of the pair interaction",
 "For T=1 pairs without 1S0 breaking the interaction used is 2/3 V_nn + 1/3 V_np; with breaking, the 1S0 block over T3=1/2,3/2 is [[2/3 nn+1/3 np, sqrt2/3 (nn-np)],[same,1/3 nn+2/3 np]], in every integration mode.",
 "all nn and np interactions, both quadrature modes","continuum of values and all channels (false of this code with midpoint_approx)",
 ["CPP/make_potential_matrix.cpp: calculate_potential_matrices_array_in_WP_basis"])
p("Free-Hamiltonian elements are the exact bin averages",
 "The kinetic-energy element assigned to a bin equals the average of p^2/(2 mu) over the bin, lies strictly between the energies of its end points, and increases with the bin.",
 "all bins","continuum of inputs",
 ["CPP/make_swp_states.cpp: construct_free_hamiltonian"])
p("Each 2N channel is diagonalised exactly once and the 3S1 deuteron is recognised",
 "While building SWP states every 2N interaction channel occurring in the basis is diagonalised exactly once (not skipped, not repeated), and the bound-state search for the deuteron is applied exactly to the coupled 3S1-3D1 channel.",
 "all truncations and isospin flags, tensor force on","unbounded family of bases",
 ["CPP/make_swp_states.cpp: make_swp_states"])
p("Reordering a coupled spectrum keeps eigenpairs together",
 "reorder_coupled_eigenspectrum moves eigenvalue k and eigenvector column k to the same new position for every k, and the new order is a permutation (even positions first, then odd).",
 "all sizes, all spectra","unbounded sizes",
 ["CPP/make_swp_states.cpp: reorder_coupled_eigenspectrum"])
p("Scattering wave-packet boundaries are ordered and enclose the eigenvalues",
 "For a strictly increasing positive spectrum (with one negative value for 3S1, and then at least three bins: with two bins the claim is false) the SWP boundaries are strictly increasing, start at 0 (3S1: start at the bound-state energy then 0) and bin i contains eigenvalue i.",
 "all spectra, all sizes >= 2 per block","continuum of spectra",
 ["CPP/make_swp_states.cpp: make_swp_bin_boundaries"])
p("Unphysical bound states stop the run",
 "The run continues only if the 3S1 channel has exactly one negative eigenvalue and every other channel none, and then E_bound is that eigenvalue.",
 "all spectra","all spectra",
 ["CPP/make_swp_states.cpp: look_for_unphysical_bound_states"])
p("Every requested energy is bracketed by two computed energies",
 "For every requested lab energy, the output contains the two neighbouring wave-packet midpoint energies that bracket it.",
 "all grids, all energy lists","all inputs (false of this code for energies outside the first/last midpoint, which are dropped silently)",
 ["CPP/run_organizer.cpp: find_on_shell_bins"])
p("On-shell rows are distinct, ordered and in range",
 "The list of on-shell energies is strictly increasing, without duplicates, each is the midpoint energy of its q bin, each recorded bin index is in range and is the index of that bin (for bins wider than 0.11 percent; the index is wrong for narrower bins because two different masses are used).",
 "all grids, all energy lists","all inputs",
 ["CPP/run_organizer.cpp: find_on_shell_bins"])
p("Breakup bin indices are valid",
 "Every (p,q) cell index recorded as a breakup channel is inside the momentum grids.",
 "all grids and energies","all inputs (false of this code: neighbour cells are not bounds-checked)",
 ["CPP/run_organizer.cpp: find_on_shell_bins (breakup branch)"])
p("Resolvent has the right analytic structure (bound-continuum)",
 "For the deuteron-nucleon resolvent of a bin, the imaginary part is -pi/width when the on-shell energy is inside the bin and 0 when it is outside, and the real part is the exact bin average of the principal-value 1/(E-E').",
 "all bins and energies off the bin edges","continuum of inputs",
 ["CPP/make_resolvent.cpp: resolvent_bound_continuum"])
p("Resolvent has the right analytic structure (continuum-continuum)",
 "For a continuum cell the imaginary part is never positive, is zero when the energy is outside the cell's energy range, and is symmetric in the two sub-energies, and the value is the exact average of 1/(E+i0-E') over the cell (off the corner energies).",
 "all cells and energies","continuum of inputs",
 ["CPP/make_resolvent.cpp: resolvent_continuum_continuum"])
p("The on-the-fly kernel equals C^T (1+...)PVC of the stored matrices",
 "For every sparse P123 and every block-structured V*C and C, the column and row routines of the solver return exactly the corresponding column of 2*C^T*P123*V*C.",
 "all matrices, all channel structures","all matrices",
 ["CPP/solve_faddeev.cpp: calculate_PVC_col, calculate_CPVC_col, calculate_all_CPVC_rows"])
p("Neumann terms are the on-shell elements of A(GA)^n",
 "With any subset of rows dropped after convergence, the n-th stored coefficient of every still-active on-shell element is the exact matrix element of A(GA)^n.",
 "all matrices, all n, all drop schedules","unbounded iteration counts and schedules",
 ["CPP/solve_faddeev.cpp: pade_method_solve"])
p("Column chunking covers the matrix exactly once",
 "For every dimension and chunk size the chunks used for the multiplication are in range, disjoint and cover all columns.",
 "all dimensions and memory sizes","boundary cases at huge sizes",
 ["CPP/solve_faddeev.cpp: pade_method_solve"])
p("The Pade resummation is exact on rational series",
 "If the Neumann series of an element is the Taylor series of a rational function with numerator degree <= N and denominator degree <= M, the computed [N/M] Pade approximant equals that function's value (whenever the denominators do not vanish). For any series whatever, a returned value is p(z)/q(z) for an [N/M] Pade pair of the series, every pair gives the same value, and no value is returned exactly when some pair has q(z)=0.",
 "all N,M, all rational functions","continuum of series, all orders",
 ["CPP/solve_faddeev.cpp: pade_approximant"])
p("Every on-shell element gets a final value",
 "When the Pade solver returns, every elastic (and breakup) element has been assigned a value from one of its computed approximants, at most order NM_max.",
 "all coefficient sequences, with and without breakup","all convergence histories (false of this code with breakup channels; the previous-approximant slot is read out of range)",
 ["CPP/solve_faddeev.cpp: pade_method_solve"])
p("Direct solver and iterative solver solve the same equation",
 "A result of the dense solver satisfies U = A + A G U; whenever the Neumann series terminates its sum satisfies the same equation and equals the dense result when 1-AG is invertible.",
 "all matrices","all matrices",
 ["CPP/solve_faddeev.cpp: faddeev_dense_solver"])
p("Output tables list each computed element once under the right label",
 "In the U-matrix output file row i / column Ujk holds the element with row deuteron j, column deuteron k and energy i, for every number of energies and deuteron channels.",
 "all array contents and sizes","all sizes",
 ["CPP/disk_io_routines.cpp: store_U_matrix_elements_txt"])
p("Parameter-set files are read completely",
 "For a rectangular file of numbers separated by single spaces the parser returns all numbers in order and the right number of sets and parameters per set.",
 "all files","all files",
 ["CPP/disk_io_routines.cpp: read_parameter_sample_list"])
p("Parameter-set ranges never read outside the file",
 "If the run starts, every parameter set index in [PSI_start, PSI_end) refers to a set present in the file.",
 "all ranges, all file lengths","all integers (false of this code: only the length of the range is compared)",
 ["CPP/main.cpp: main"])
p("Breakup output array is large enough",
 "With breakup channels enabled, every write to the breakup U array is inside the allocation.",
 "all numbers of energies, deuteron states and breakup channels","all sizes (false of this code)",
 ["CPP/main.cpp: main","CPP/solve_faddeev.cpp"])
p("Coupling-coefficient tables do not alias",
 "The flat index of the precomputed Clebsch-Gordan and 6j tables is injective and in range over all legal quantum numbers up to the table's maximum, so a lookup returns the coefficient stored for exactly those quantum numbers.",
 "all table sizes, all quantum numbers","unbounded index arithmetic",
 ["CPP/auxiliary.cpp: ClebschGordan_array, SixJSymbol","CPP/make_permutation_matrix.cpp"])
p("A run that stops on an error reports failure to its caller",
 "Whenever the program stops because of an error, the process exit status is non-zero so that batch scripts can detect it.",
 "all errors","all error paths (false of this code: raise_error exits with status 0)",
 ["CPP/error_management.cpp: raise_error"])
p("Potential components are re-ordered consistently for external models",
 "For the external (chiral, Nijmegen) potentials, the re-ordering of the six components is a permutation, and it maps the Fortran order (S0,S1,++,--,+-,-+) to the program's order for every value.",
 "all six-component arrays","all values",
 ["CPP/Interactions/nijmegen.cpp: V","CPP/Interactions/chiral_twobody.cpp: V","CPP/Interactions/chiral_N2LOopt.cpp: V"])
p("Building the basis reads only initialised, in-range entries",
 "construct_symmetric_pw_states never reads outside the vectors it builds.",
 "all accepted truncations","undefined behaviour may go unnoticed in tests (false of this code in every run: the largest-channel loop reads entry N_chn before it is appended)",
 ["CPP/make_pw_symm_states.cpp: construct_symmetric_pw_states"])
p("The printed channel banner shows the channel's parity",
 "The JP label printed when a channel is constructed shows the same parity as the PAR column of its states.",
 "all channels","all channels (false of this code: the sign is inverted)",
 ["CPP/make_pw_symm_states.cpp: construct_symmetric_pw_states"])
p("Skipping cells with the overlap table loses nothing",
 "For every pair of momentum cells the overlap table marks as non-overlapping, the P123 element computed with any quadrature in phi between the cells' hyper-momentum limits is exactly zero, so the stored sparse matrix equals the full matrix.",
 "all momentum cells, all quadrature rules, all geometric functions","continuum of cells",
 ["CPP/make_permutation_matrix.cpp: calculate_WP_overlap","CPP/auxiliary.cpp: calculate_P123_element_in_WP_basis_mod"])
p("Integer overflow of the 6j table size is always reported",
 "Whenever the size of the 6j table does not fit in the 32-bit integer that holds it, the program stops with an error.",
 "all angular momenta","astronomically large tables (false of this code: at lmax=20 the wrapped size is positive)",
 ["CPP/make_permutation_matrix.cpp: calculate_permutation_elements_for_3N_channel"])
p("The optimised geometric function equals its defining formula",
 "For all states, momenta and angles, the geometric function computed from prestored tables equals the direct triple sum over coupling coefficients and spherical harmonics.",
 "all quantum numbers, momenta, angles and table fill schedules","unbounded sums over real arguments",
 ["CPP/auxiliary.cpp: Gtilde_new, Gtilde_subarray_new, ClebschGordan_array"])
p("A P123 folder path of any length works",
 "Whatever the length of P123_folder, the P123 file is written to and read from that folder.",
 "all folder names","unbounded string lengths (false of this code: the file name is strcpy'd into char[300])",
 ["CPP/disk_io_routines.cpp: store_sparse_permutation_matrix_for_3N_channel_h5, read_sparse_permutation_matrix_for_3N_channel_h5","CPP/make_permutation_matrix.cpp: fill_P123_arrays"])
p("The energy file can be chosen on the command line",
 "An argument energy_input_file=NAME selects NAME as the file the energies are read from.",
 "all command lines and file names","unbounded inputs (false of this code: values ending in .txt are parsed as a list of arguments)",
 ["CPP/set_run_parameters.cpp: set_run_parameters","CPP/disk_io_routines.cpp: read_input_energies"])
p("A missing or empty parameter file is reported",
 "A parameter walk whose parameter file is missing or empty stops with an error message.",
 "all parameter files","all file contents (false of this code: integer division by zero)",
 ["CPP/disk_io_routines.cpp: read_parameter_sample_list"])
p("A channel index outside the channel range is reported",
 "With parallel_run=true a channel_idx that is not the index of a three-nucleon channel stops the program with an error; a valid index does exactly that channel.",
 "all channel indices and settings","unbounded domain (false of this code: nothing is computed and nothing reported)",
 ["CPP/main.cpp: main"])
p("Thread buffers never overflow and lose nothing",
 "During the P123 calculation every element a thread produces is written inside its buffer, and at every moment the thread's files and buffer together hold exactly the elements it produced, in order.",
 "all traces of stores, thread counts, buffer sizes and prior disk contents","unbounded schedules and element counts (the real buffer holds 67 million elements)",
 ["CPP/make_permutation_matrix.cpp: calculate_permutation_elements_for_3N_channel"])
p("A P123 file computed with other settings is rejected",
 "A P123 file computed with other angular quadratures (Nx, Nphi) or with production_run=false is not accepted by a run with different settings.",
 "all settings, bases, grids and matrices","all pairs of settings (false of this code: the file does not record them)",
 ["CPP/disk_io_routines.cpp: store_sparse_permutation_matrix_for_3N_channel_h5, read_sparse_permutation_matrix_for_3N_channel_h5","CPP/make_permutation_matrix.cpp: fill_P123_arrays"])
p("A failed write of P123 data is reported",
 "If any write of a P123 file fails, either the writing run or every later reading run stops with an error.",
 "all failing writes and all matrices","I/O failure points (false of this code: array writes are unchecked and read back as zeros)",
 ["CPP/disk_io_routines.cpp: write_sparse_permutation_matrix_h5, read_sparse_permutation_matrix_h5"])
p("Every parameter set of a walk keeps its Neumann terms",
 "After a parameter walk the output folder holds the Neumann-series terms of every parameter set.",
 "all lists of parameter sets","unbounded histories (false of this code: the file name has no parameter-set index)",
 ["CPP/solve_faddeev.cpp: pade_method_solve","CPP/main.cpp: main"])
p("The generated quadrature is Gauss-Legendre quadrature","For every N the point generator, when its iteration stops, returns nodes within (N+1) tolerances of true roots of P_N; and for iterations that have reached their fixed points the stored N-point rule integrates every polynomial of degree below 2N exactly over (-1,1).","all N up to 10^7 (stopping) resp. all N (exactness), all polynomials","infinitely many rules and integrands","CPP/General_functions/gauss_legendre.cpp: gauss".split("|"))
p("Lab energy and c.m. momentum are related relativistically","The momentum computed for a lab energy T is the one for which proton and deuteron with opposite momenta have the same invariant mass as a proton of kinetic energy T hitting a deuteron at rest.","all T>=0, all bound-state energies with positive deuteron mass","continuum of inputs","CPP/General_functions/kinetic_conversion.cpp: lab_energy_to_com_momentum".split("|"))
p("The radial part of every P123 contribution is exact","For every pair of cells and every angular mesh point, the contribution to the permutation-matrix element contains the exact integral of k dk over all scale factors that put the bra momenta and the permuted ket momenta into their bins, and nothing else.","all cells, all mesh points","continuum of inputs","CPP/auxiliary.cpp: calculate_P123_element_in_WP_basis_mod".split("|"))
p("Stored scattering wave packets diagonalise their own channel's Hamiltonian",
"After the wave-packet construction finishes without an error, for every basis state the stored coefficient matrix of its two-nucleon channel holds orthonormal eigenvectors of (bin-averaged kinetic energy + that same channel's potential matrix); the eigenvector of the k-th smallest energy sits at column k (uncoupled) or at column k/2 of the first/second block for even/odd k (coupled), and the stored boundaries of that block enclose its energies.",
"every truncation, isospin setting, number of bins, increasing grid, symmetric potential matrices, any diagonaliser obeying LAPACK's contract",
"a test sees one potential and one grid; overwritten segments or shifted columns of other channels only show for other sizes",
["CPP/make_swp_states.cpp: make_swp_states, construct_full_hamiltonian, reorder_coupled_eigenspectrum, make_swp_bin_boundaries"])
p("The resolvent array pairs every cell with its own channel's energies",
"After a successful wave-packet construction the resolvent at (state, q-bin, p-bin) is the bound-continuum resolvent at the deuteron energy for the S-wave deuteron state's first bin, and otherwise the continuum-continuum resolvent of the energy bin that encloses the p-th energy of that state's own channel and block.",
"every truncation, isospin setting, grid and potential with non-degenerate, non-zero channel energies and at least 3 bins","all channel structures; a wrong pointer offset only shows for some channels",
["CPP/make_resolvent.cpp: calculate_resolvent_array_in_SWP_basis"])
p("Recorded breakup cells are on shell",
"Every cell recorded as a breakup channel of an energy (other than the extra neighbours) contains the total energy E_com + E_bound at which the equations are solved.",
"all grids, channels and energies above the breakup threshold","continuum of energies and grids (false of this code: cells are compared with E_com instead of the total energy)",
["CPP/run_organizer.cpp: find_on_shell_bins (breakup branch)","CPP/main.cpp: main (E = E_com + E_bound)"])
p("The recorded elastic bin carries the elastic cut",
"At the total energy of every computed on-shell energy, the resolvent of the deuteron bound bin has imaginary part -pi/width in exactly the q bin recorded for that energy and is real in every other q bin.",
"all increasing grids with bins wider than 0.11 percent, all binding energies between -3 and 0 MeV, all requests","continuum of grids and energies; ties three routines with different reduced masses together",
["CPP/run_organizer.cpp: find_on_shell_bins","CPP/make_resolvent.cpp: resolvent_bound_continuum"])
p("The determinant routine is correct for every matrix and pivoting",
"For every square complex matrix and every pivot sequence the LU factorisation may choose, the determinant routine used by the Pade approximants returns the determinant.",
"all dimensions, matrices and pivot sequences","a sign error only shows for some pivot patterns",
["CPP/General_functions/matrix_routines.cpp: determinant","CPP/solve_faddeev.cpp: pade_approximant"])
p("An element is accepted only when its approximants have settled",
"Whenever the iterative solver accepts a value before the last order, two of the element's own successive approximants agree within the tolerances.",
"all kernels, resolvents and element positions","all coefficient sequences (false of this code: at order 0 the cell of the previous element is taken for the previous approximant)",
["CPP/solve_faddeev.cpp: pade_method_solve (convergence test)"])
p("Breakup amplitudes are solution elements with either solver",
"Whichever solver is selected, every reported breakup amplitude is an element of a solution (or approximant) of U = A + A G U.",
"all kernels, all runs with breakup channels","all inputs (false of this code: the direct solver never writes the breakup array, so zeros are reported)",
["CPP/solve_faddeev.cpp: solve_faddeev_equations, faddeev_dense_solver","CPP/main.cpp: main"])
p("The Malfliet-Tjon force acts only in S waves","For all positive momenta the Malfliet-Tjon model returns the S-wave projection of its repulsive and attractive Yukawa forces (singlet strength for J=0, triplet for J=1), it is Hermitian, and the element extracted for any physical pair of partial waves vanishes unless both have L=0.","all momenta, all pairs of partial waves","continuum of inputs",["CPP/Interactions/malfliet_tjon.cpp: V","CPP/make_potential_matrix.cpp: extract_potential_element_from_array"])
p("Reported amplitudes are those of the discretised Faddeev problem of the user's input",
"Whenever the calculation of a channel finishes, the number reported for an energy and a pair of deuteron states is the on-shell element, between the deuteron wave packets at the bin of the on-shell momentum, of the solution of U = A + A G U (direct solver, when the solution is unique) or of a diagonal Pade approximant of its Neumann series (iterative solver), where A = C^T (P123+P132) V C with V the wave-packet matrix elements of the selected interaction, C an orthonormal set of eigenvectors of the pair Hamiltonian, and G the bin-averaged resolvent at the energy of the printed lab energy; with a realistic two-nucleon spectrum and a grid with bins wider than 0.11 percent the calculation does finish.",
"every Hermitian interaction with nondegenerate spectra, every truncation, grid, requested energies and permutation matrix; every LAPACK eigenvector choice, thread order and content of fresh memory",
"composes all stages; a wrong connection of two correct stages shows only for some inputs",
["CPP/main.cpp: main (channel loop)","CPP/make_potential_matrix.cpp","CPP/make_swp_states.cpp","CPP/run_organizer.cpp","CPP/make_resolvent.cpp","CPP/solve_faddeev.cpp"])
p("The breakup file is a faithful listing",
"In the table written for the breakup amplitudes, every amplitude (energy, deuteron state, recorded cell) has its own place, in a row of its own energy and in the columns headed with its own partial waves, next to the boundaries of its own q and p bins; every row starts with the data of its energy; all other places are zero; no row or column is superfluous. The table can always be made.",
"every truncation, channel, increasing q grid, energies, requests and amplitudes","the layout depends on which cells are recorded for which energy; a collision or a lost row appears only for some histories",
["CPP/disk_io_routines.cpp: restructure_breakup_data, store_U_BU_matrix_elements_txt","CPP/run_organizer.cpp: find_on_shell_bins"])
p("Column headings of the breakup file identify the partial waves",
"No two amplitude columns of a breakup file have the same heading.",
"every truncation, isospin setting, channel, grid and energies","all state spaces (false of this code with isospin breaking: the total isospin is not printed)",
["CPP/disk_io_routines.cpp: restructure_breakup_data (label)"])
p("Breakup cells have positive pair energy",
"Every p bin recorded as a breakup cell consists of non-negative pair energies, so its boundaries are momenta.",
"all grids, channels and energies","continuum of energies (false of this code: the neighbour below the first scattering bin is the deuteron's bound-state bin)",
["CPP/run_organizer.cpp: find_on_shell_bins (neighbours)","CPP/disk_io_routines.cpp: restructure_breakup_data"])
p("Every breakup cell is recorded once per energy",
"For one energy no cell (partial wave, q bin, p bin) is recorded twice.",
"all grids, channels and energies","continuum of energies (false of this code: neighbours of adjacent on-shell cells are appended without checking)",
["CPP/run_organizer.cpp: find_on_shell_bins (neighbours)"])
p("Permutation matrix is P123 between wave packets",
"The permutation matrix computed for a three-nucleon channel holds, in strictly increasing row-major order and without zeros, the elements of P123 = spin-isospin-orbital recoupling times the quadrature over x and phi of the geometric function times the exact hypermomentum integral over the overlap of the two cells, divided by the norms of the wave packets - for every schedule, number of threads, content of memory and of the disk; and the calculation always ends.",
"all channels, grids, quadratures, thread counts and schedules","infinitely many grids and schedules; the tables, the overlap shortcut and the parallel stores all have to be right at every index",
["CPP/make_permutation_matrix.cpp: fill_P123_arrays, calculate_WP_overlap, calculate_Gtilde_subarray_polar, calculate_permutation_elements_for_3N_channel","CPP/auxiliary.cpp: Atilde, Gtilde_subarray_new, ClebschGordan, calc_gauss_points"])
p("Permutation conserves total isospin",
"No stored element of the permutation matrix connects states of different total isospin, also when the interaction breaks isospin.",
"all channels, grids, quadratures and schedules","all elements of all matrices",
["CPP/make_permutation_matrix.cpp: Atilde_store","CPP/auxiliary.cpp: Atilde"])
p("Amplitudes from the user's input, permutation matrix included",
"Whether a run computes its permutation matrix or reads it from a file computed by any other run, if it does not stop it uses the matrix of P123 in its own basis and grid (with the quadrature of the run that computed it), and the reported amplitudes are those of the Faddeev equation with that P123, the user's interaction and the resolvent.",
"all inputs, channels, energies, earlier runs, schedules and memory contents","end-to-end statement over all inputs and histories",
["CPP/main.cpp: main","CPP/make_permutation_matrix.cpp: fill_P123_arrays","CPP/disk_io_routines.cpp: read_sparse_permutation_matrix_for_3N_channel_h5","CPP/solve_faddeev.cpp"])
p("Phi mesh of the permutation matrix lies in its interval and is Gauss-Legendre",
"For every number of points N and interval, whenever the phi mesh is delivered it has N points strictly inside the interval; a node whose Newton iteration passed its test is within (N+1)*1e-9 (of half the interval) of the image of a true root of P_N and has a positive weight (N up to 3000); otherwise all 100 iterations were used without passing (which is not reported). With the N different roots as points the rule integrates every polynomial of degree below 2N exactly over the interval.",
"all N, all intervals, all polynomials","continuum of intervals, infinitely many meshes and integrands",
["CPP/auxiliary.cpp: roots, calc_gauss_points, dLegendre","CPP/make_permutation_matrix.cpp: calculate_WP_overlap"])
p("Results are reproducible on another machine",
"Two runs on the same input and permutation operator, on machines that differ in the signs LAPACK gives eigenvectors, in the contents of fresh memory and in the order of threads, give the same deuteron energy, the same list of energies and the same elastic amplitudes. (True for the direct solver whenever the equation has one solution. False for the iterative solver: the approximant of order 0 of the first element is compared with the memory cell before an array, so the result of the first element can be 3/2 with one memory content and 1 with another.)",
"all inputs, interactions, channels, energies, LAPACK implementations, memory contents and schedules","relates all pairs of runs; undefined reads show up only with particular memory contents",
["CPP/main.cpp: main","CPP/make_swp_states.cpp: make_swp_states","CPP/solve_faddeev.cpp: pade_method_solve, direct_dense_solve"])
p("Output tables determine the computed numbers to the last bit",
"Every row of the elastic and of the breakup table, split at blanks, gives back its entries in order; the decimal text of a number identifies the double it was computed as (every other double is farther away). Two rows with the same text hold the same energies, bin and amplitudes bit for bit. (Finite numbers that are not minus zero, energies not negative, bin numbers below 10^9.)",
"all rows, all doubles, all choices the library makes between two nearest decimals","2^64 doubles per entry; columns could run into each other for some lengths only",
["CPP/disk_io_routines.cpp: to_string_with_precision_and_sign, store_U_matrix_elements_txt, store_U_BU_matrix_elements_csv"])
p("Every finite amplitude is written as a complex number",
"The text of a finite complex amplitude in the output tables is a complex number a+bj or a-bj that a reader (Python complex) accepts. (False of this code: a component minus zero is >= 0, so a plus sign is written before '-0.0...': the text begins with '+-' or contains it, and is not a number.)",
"all finite complex doubles","the exception is one value in 2^64",
["CPP/disk_io_routines.cpp: to_string_with_precision_and_sign, store_U_matrix_elements_txt"])
p("The file of q boundaries identifies the grid",
"The file q_boundaries_Nq_N.csv determines the boundaries of the bins used by the run. (False of this code: eight decimals in fixed format; different grids give the same file. What holds: every line is a number within 5e-9 MeV of the boundary.)",
"all grids","continuum of grids",
["CPP/disk_io_routines.cpp: store_q_WP_boundaries_csv","CPP/make_wp_states.cpp: make_fwp_statespace"])
p("Chiral potentials are the partial waves of the chiral force",
"For IS_LO, IS_NLO, IS_N2LO, IS_N3LO, N2LOopt and Idaho_N3LO and every line of parameters, each element <L',p'|V|L,p> (with the program's sign for mixing elements) is the partial-wave projection of the model's force: one-pion exchange (neutral and charged pions), two-pion exchange with central, spin-spin, spin-orbit, tensor and sigma-L parts, each with its regulator and the minimal-relativity factor, plus the contact terms of that wave; for J up to 38 and momenta up to twice the cutoff, zero above. The stored matrices are its wave-packet averages.",
"all parameter lines, partial waves, charges and momenta","continuum of momenta and parameters; all waves",
["CPP/Interactions/chp/chiral-twobody-potentials.f90: chp, pwd_c, pwd_s, pwd_LS, pwd_sigL, pwd_T, pwd_integral","CPP/Interactions/chp/chp-set.f90","CPP/Interactions/chiral_twobody.cpp: V","CPP/Interactions/chiral_N2LOopt.cpp","CPP/Interactions/chiral_Idaho_N3LO.cpp"])
p("Chiral potentials are Hermitian",
"For every chiral model and every line of parameters, exchanging ingoing and outgoing momenta and orbital momenta does not change an element, and the stored potential matrices are symmetric.",
"all parameter lines, waves and momenta","continuum of momenta and parameters",
["CPP/Interactions/chp/chiral-twobody-potentials.f90: chp","CPP/make_potential_matrix.cpp"])
p("Each column of a parameter line is one constant, with its effect and nothing else",
"For the six chiral models: changing a column that holds a contact constant changes the elements of exactly the partial waves (and charges) that constant belongs to - every two values give different elements there (positive momenta up to twice the cutoff) - and changes nothing elsewhere. The columns of the three-nucleon constants, which every line of IS_NLO and IS_N2LO must have, change nothing at all.",
"all models, lines, columns, values, waves, charges and momenta","continuum of values; a swapped pair of columns shows only for particular waves",
["CPP/Interactions/chp/chp-set.f90","CPP/Interactions/chp/chiral-twobody-potentials.f90: chp, contact terms","CPP/Interactions/chiral_twobody.cpp: update_parameters"])
p("A parameter walk solves every set with the constants of its own line",
"With parameter_walk and a chiral model, every solve for parameter set i, in every channel, uses the force with the numbers of line i of the file - whatever the range, the sets done before and the initial memory; lines that do not fit the model are rejected. (The first part holds for lines with at least the model's number of columns. False of this code for the second: lines with too many columns are accepted and cut; lines with too few are accepted, constants are then taken from later lines, and the last sets of the file read beyond it.)",
"all files, ranges, channels and models","history of updates; the wrong case passes the check made by the program",
["CPP/main.cpp: main","CPP/disk_io_routines.cpp: read_parameter_sample_list","CPP/Interactions/chiral_twobody.cpp: update_parameters"])
p("A parameter walk has an effect",
"When parameter_walk is on, the sets of the file change the potential, or the run is refused. (False of this code for LO_internal, malfliet_tjon and nijmegen: any file is accepted and every set is solved with the same potential as a run without walk.)",
"all files and ranges, all models without parameters","needs all files",
["CPP/Interactions/chiral_LO_internal.cpp: update_parameters","CPP/Interactions/malfliet_tjon.cpp: update_parameters","CPP/Interactions/nijmegen.cpp: update_parameters","CPP/main.cpp: main"])
p("Without a parameter walk the constants of the potential are the published ones",
"A run without parameter_walk uses, in every channel, constants that are part of the program. (True for N2LOopt and Idaho_N3LO. False of this code for IS_LO, IS_NLO, IS_N2LO, IS_N3LO: the constants are read from an array that was never written; whatever it holds, another content changes the neutron-proton 1S0 force at every pair of momenta.)",
"all inputs, all contents of memory","contents of uninitialised memory cannot be chosen by a test",
["CPP/Interactions/potential_model.cpp: fetch_potential_ptr","CPP/Interactions/chiral_twobody.cpp: call_preset, update_parameters","CPP/Interactions/chiral_N2LOopt.cpp","CPP/Interactions/chiral_Idaho_N3LO.cpp"])
_F="CPP/Interactions/chp/chiral-twobody-potentials.f90: "
p("Two-pion exchange is the published expression of its order",
"For every chiral model, parameter line, nucleon pair and pair of momenta, every amplitude of two-pion exchange is the published expression of that order (Machleidt and Entem; Entem et al.; Epelbaum et al.), with the loop functions given by the two-pion spectrum up to the spectral cutoff; the two-loop terms of IS_N3LO (except the isoscalar central one, see C101) are the dispersion integrals over the published spectral functions, summed with the program's rule. Each potential element is the projection of that force.",
"all models, parameter lines, pairs, waves, momenta and angles","continuum of momenta and constants; a wrong coefficient is a small change of a number",
[_F+"chp_two_pion_exchange_1loop_*, chp_N3LO_2PE_*"])
p("The loop functions are integrals over the two-pion spectrum",
"The functions A and L the program computes are half the integral of 1/(mu^2+q^2), and (4m^2+q^2) times the integral of 1/((mu^2+q^2) sqrt(mu^2-4m^2)), over the masses from 2m to the spectral cutoff (all masses without one); with a cutoff they are positive, smaller than without, and tend to the latter as the cutoff grows.",
"all pion masses, cutoffs and momentum transfers","integrals and limits",
[_F+"chp_NLO_dr_two_pion_exchange_loop_L, chp_NLO_sfr_two_pion_exchange_loop_L, chp_NNLO_dr_two_pion_exchange_loop_A, chp_NNLO_sfr_two_pion_exchange_loop_A"])
p("The two-loop central force of IS_N3LO is its dispersion integral up to the error of two sums",
"The value used for the isoscalar central two-loop amplitude equals the dispersion integral over the published spectral density up to the cutoff, plus q^6 times a constant times the error of the quadrature from 2m/cutoff to 0.95 and of the expansion from 0.95 to 1, both for the logarithmic part only.",
"all constants, momentum transfers, cutoffs and quadrature rules","integral identity",
[_F+"chp_N3LO_2PE_Vc_2loop_SFR"])
p("The expansion near threshold has the documented accuracy",
"The expansion used for z from 0.95 to 1 has a relative error of at most 2.6e-10 for the momenta of a run, as documented. (The comment says for all values: false above q^2 = 796 m^2; there it is between 2.7e-10 and 3.4e-10.)",
"all momentum transfers and pion masses","error bound on a continuum",
[_F+"chp_N3LO_2PE_Vc_2loop_SFR"])
p("The bracket of the two-loop integrals is accurate for all arguments",
"The function used for the bracket in the two-loop integrals is exact for arguments from 0.05 on; below, where it is replaced by a polynomial, the error is less than 5.5e-13.",
"all positive arguments","error bound on a continuum",
[_F+"chp_N3LO_2PE_2loop_int_helper"])
p("The loop functions are defined at every mesh point",
"For momenta not both zero and angles inside the mesh, no loop function divides by zero or takes the logarithm or root of a non-positive number.",
"all momenta, angles, pion masses and cutoffs above threshold","continuum of inputs",
[_F+"chp_NLO_sfr_two_pion_exchange_loop_L, chp_NNLO_sfr_two_pion_exchange_loop_A, chp_N3LO_2PE_*"])
p("Spin-spin and tensor amplitudes of two-pion exchange belong together",
"In every class and in the sum, the spin-spin amplitudes are -q^2 times the tensor amplitudes.",
"all classes, settings, momentum transfers","all inputs",
[_F+"chp_two_pion_exchange_1loop_*_Vs, chp_N3LO_2PE_Vs_*, chp_N3LO_2PE_Ws_*, chp_N3LO_2PE_VT_*, chp_N3LO_2PE_WT_*"])
p("The versions of the relativistic corrections differ by contact terms only",
"The two versions of the 1/M corrections give amplitudes that differ by polynomials in q^2, the stated ones; the third version equals the second.",
"all constants, masses, cutoffs and momentum transfers","all inputs",
[_F+"chp_two_pion_exchange_1loop_r_*"])
p("Tables kept between calls never show",
"In every history of presets and evaluations each value returned is that of the preset in force, as if no table had been kept from an earlier call.",
"all histories of presets and evaluations","histories",
[_F+"chp_setup_2PE_2loop_int_data, chp_calculate_2PE_2loop_int_*_data"])
_NJ="CPP/Interactions/nijmegen/pnijm.f: "
p("The Nijmegen potential in partial waves is the projection of the Nijmegen I force",
"For partial waves up to J = 9, the elements the program obtains from the Nijmegen routines, with the sign it applies to mixing elements, are the partial-wave projections of the Nijmegen I one-boson-exchange force with the parameter set of that wave and charge state; above J = 9, and for momenta further apart than 30 hbar c per fm, they are zero. The stored matrices are the wave-packet averages of these elements.",
"all positive momenta, all partial waves and charge states, all orders of calls","continuum of momenta; the check is an identity between routines and an integral",
[_NJ+"nijm, PNIJMLSJ, VMOM, PHSRDL, NYMCOP, PSVECT, VECTOR, SCALAR, DIFRAC","CPP/Interactions/nijmegen/nijmegen_interface.f90: nijmegen","CPP/Interactions/nijmegen.cpp: nijmegen::V"])
p("The Nijmegen potential is symmetric",
"Exchanging the two momenta transposes the six components the Nijmegen model returns, and the stored matrices are symmetric, whatever values the quadrature routines return for given arguments.",
"all momenta, waves, charge states and all quadrature routines that are functions of their arguments","continuum of inputs",
[_NJ+"nijm, PNIJMLSJ, VMOM, PSVECT, VECTOR, SCALAR, DIFRAC","CPP/Interactions/nijmegen.cpp: nijmegen::V"])
p("The exponential integral of the Nijmegen potential is accurate",
"For every positive argument CE1 ends after at most 15 rounds of its loops and returns e^x E1(x) within 1e-12, within 4.7e-13 from 1 on, within 6.2e-14 from 3 on, within 8.5e-15 from 14 on, and with relative error at most 2e-13 from 165 on.",
"all positive arguments","continuum of arguments, and the exact value is an improper integral",
[_NJ+"CE1, FDEXP"])
p("The angular integrals of the Nijmegen potential are right whatever calls came before",
"After every history of calls with arguments in range (x at least 1, above 1 if the propagator is wanted; y above 1e-3; y(x+1) below 100; a^2 at most 60; at most 9 waves; the wave number growing by at most one while y stays the same), SEXN stays inside its table of 30 moments, ends, and returns for every wave n asked for half e^(a^2) times the integral of P_n(z) e^(-y(x-z)), within 1.3e-7 3^n e^(a^2-y(x-1)), and, if asked for, the same with 1/(x-z), within 6.7e-6 3^n (x above 5) or 3.3e-8 15^n (x up to 5) times e^(a^2-y(x-1)); other entries of the caller's arrays are left alone. Outside that range both can fail: with wave numbers 9 to 13 and x above 5 a call that fills the table writes beyond it, and a call in the negligible region between two equal calls makes the second one return zeros for a positive integral.",
"all histories of calls, all arguments in the range, all initial contents of the table","the table and its keys survive between calls, so the result depends on the whole history; the exact values are integrals",
[_NJ+"SEXN, PLCFS, GRENS, CE1"])
p("The angular integrals of the Nijmegen potential at low momenta",
"For y up to 1e-3 (y x below 100, at most 12 waves, x at least 2 if a mass is given and at least 1 otherwise) SEX ends and returns the integrals with the propagator, half e^(a^2) times the integral of P_n(z) e^(-y(x-z))/(x-z), within (1.35e-7 + y^2) e^(a^2-yx)/(x-1), those without it within y^20 e^(a^2-yx) for waves 0 and 1 and within (3y)^n e^(a^2-yx) for higher waves, and zero in place of the former for a = 0; it leaves the tables of the other branch alone, so that a call with larger y returns the integrals of C111 after every history that mixes both. The bound for wave 2 cannot be improved in kind: without the propagator the value returned is always at least 1.49 times the integral (the coefficients of the polynomial are cut to integers), and with it the value is too small, by a factor of 0.81 or less once yx is 1 or more (heavy mesons).",
"all arguments in the range, all waves, all histories","the exact values are integrals over a continuum of arguments; the branch taken depends on the momenta",
[_NJ+"SEX, SMLLEX, QJ99, HYPRG99, PLCFS"])
p("The Nijmegen potential evaluated again and again",
"The routine behind the Nijmegen potential keeps tables from one meson to the next and from one evaluation to the next. For waves with J up to 4 and positive momenta of at most 3300 MeV together, after every history of such evaluations since the start of the program, for every wave, type and pair of momenta, an evaluation never leaves these tables, and it adds up the exchanges of all mesons with angular integrals that are within the bounds of C111 and C112 in every entry the potential uses (all waves with the propagator, all but the highest without it, which does not enter), provided it does not find tables left by an earlier wave with smaller J for exactly the same argument y; loops over momenta at fixed J and a restart at lower momenta are always of this kind. For larger J the tables are too small: from J = 5 to 9 every evaluation at momenta of which one is at least ten times the other (product above 500 MeV^2) writes beyond them, in whatever state it finds them, and from J = 7 to 9 every evaluation with a product of momenta between 500 and 114000 MeV^2 does unless the previous one left the same y.",
"all histories of evaluations, waves, charge types, momenta, contents of local arrays","what an evaluation returns depends on everything evaluated before",
[_NJ+"VMOM, PSVECT, VECTOR, SCALAR, DIFRAC, SEX, SEXN, SMLLEX"])
p("What the Nijmegen routines keep between calls has no effect",
"The Nijmegen routines keep the name of the wave and what they read off it, the charge type, masses, parameters and couplings from call to call and bring them up to date only when the wave or the type changes. After every history of calls since the start of the program (all waves, charges, momenta, calls that return early included, whatever uninitialised storage holds), a call with Tz of -1, 0 or 1 returns exactly what it returns when everything is computed afresh, so a sequence of calls gives the results of the single calls in any order. A Tz outside -1, 0, 1 is not refused: the call returns the potential for the charge type of the last call that had a valid one.",
"all histories of calls, all next calls, all initial contents of memory","the result could depend on any earlier sequence of waves and charges",
[_NJ+"nijm, PNIJMLSJ, VMOM, AMFACS, NYMPAR, PHSRDL, NYMCOP","CPP/Interactions/nijmegen/nijmegen_interface.f90: vnijm","CPP/Interactions/nijmegen.cpp: nijmegen::V"])
p("A whole run leaves, for every channel and parameter set, a file with the right amplitudes, and splitting the work over jobs changes nothing",
"From the parameter file to the files of amplitudes: when a run with a chiral model and a parameter walk has come to its end, then for every three-nucleon channel and every parameter set of its work the file named after channel and set holds a table whose rows are in increasing order of the lab energy and bracket every requested energy within range, each row with the lab energy, c.m. energy and q bin of an on-shell point and the amplitudes (direct solver: of the unique solution; iterative solver: Pade approximants of the Neumann series) of the discretised Faddeev problem of that channel, with the permutation operator computed by the run or read from a file, and with the force whose constants are the numbers in that line of the parameter file. No other file of amplitudes is changed. The same holds without a walk for the potential object selected by name. Two such runs - everything in one run, or a job for one channel and some of the sets - on machines that differ in LAPACK's eigenvectors, fresh memory and thread order, one computing the permutation matrix and the other reading it, leave equal tables for every channel and set that both do.",
"all inputs, parameter files, channels, parameter sets, LAPACK results, memory contents, thread orders, previous files","composition of the whole program over all inputs and schedules",
["CPP/main.cpp: main","CPP/disk_io_routines.cpp: store_U_matrix_elements_txt","CPP/run_organizer.cpp: find_on_shell_bins","CPP/solve_faddeev.cpp: solve_faddeev_equations","CPP/Interactions/potential_model.cpp: fetch_potential_ptr"])
p("Breakup amplitudes of a whole channel calculation belong to their own deuteron state, energy and cell; the direct solver's are all zero; the calculation completes",
"With the iterative solver and breakup switched on, when the calculation of a channel is below the breakup threshold or has not stopped early by counting accepted elements (C47), the elastic amplitudes are as in C80 and the breakup table has, for every energy, every deuteron state and every recorded cell inside the grids, in the rows of that energy and the column of the cell, a diagonal Pade approximant of the Neumann series of the Faddeev problem at that energy between the deuteron wave packet in the on-shell bin and the wave packet of the cell. With the direct solver every number in the breakup table is zero. If the two-nucleon spectra pass the check for bound states, the deuteron energy is realistic and neighbouring q boundaries differ by at least 0.11 percent, a calculation with breakup completes, and above the threshold every partial wave has a recorded cell in the q bin of the on-shell momentum.",
"all inputs, interactions, channels, energies, cells, LAPACK results, memory contents, thread orders","composition over all inputs of set-up, cell search, solver and table",
["CPP/main.cpp: main","CPP/solve_faddeev.cpp: solve_faddeev_equations, pade_method_solve","CPP/run_organizer.cpp: find_on_shell_bins (breakup branch)","CPP/disk_io_routines.cpp: restructure_breakup_data, store_U_BU_matrix_elements_txt"])
p('Which recorded breakup cells conserve energy',
'A user expects breakup amplitudes on the energy shell, for cells of pair and spectator energies that contain the total energy E_com + E_bound, at which the equations are solved. The search uses E_com instead. For every continuum cell above the breakup threshold: the cell is open (the resolvent of the calculation has an imaginary part) exactly when the total energy lies inside it; it is recorded if it contains E_com; so a cell that contains E_com is open exactly when it extends from below E_com + E_bound to E_com. If no cell is wider than half the binding energy, every recorded cell of the grid, neighbours included, lies above the total energy and is closed, and no cell that contains the total energy is recorded.',
'all interactions, grids, energies, partial waves and cells','relation between two searches over all grids and energies; unit tests would need the spectrum of every interaction',
['CPP/run_organizer.cpp: find_on_shell_bins (breakup branch)', 'CPP/main.cpp: main', 'CPP/make_resolvent.cpp: calculate_resolvent_array_in_SWP_basis, resolvent_continuum_continuum'])
p('Sizes a 32-bit calculation can treat',
'For a calculation whose sizes satisfy fifteen inequalities (pairs of momentum cells below 2^31, four times states x p bins x q bins below 2^31, matrices, meshes and tables accordingly) none of the size and index computations that the program does in int overflows: every one has its exact value. For any other sizes one of them overflows. In particular the overlap table of the permutation-matrix calculation is allocated with the right length exactly if (Nq*Np)^2 < 2^31 - on square grids up to 215 x 215 bins; beyond that the allocation throws (216 to 255 bins) or, as with 256 bins, gives a table that is too short and is written beyond its end, without any message. (A user expects an error message, or a correct calculation, for every grid.)',
'all grid sizes, numbers of states, channels, mesh points and breakup cells, all values of the loop variables','overflow appears only on grids too large to test; the bound must hold for every loop variable of every expression',
['CPP/make_permutation_matrix.cpp: fill_P123_arrays, calculate_WP_overlap', 'CPP/main.cpp: main', 'CPP/make_swp_states.cpp: make_swp_states, construct_full_hamiltonian', 'CPP/make_potential_matrix.cpp: calculate_potential_matrices_array_in_WP_basis', 'CPP/run_organizer.cpp: find_on_shell_bins', 'CPP/make_resolvent.cpp: calculate_resolvent_array_in_SWP_basis', 'CPP/disk_io_routines.cpp: restructure_breakup_data', 'CPP/make_wp_states.cpp: make_fwp_statespace'])
p('The record of a calculation',
'After every start that is accepted, the file run_parameters.txt of the output folder tells, each under its label, the values of all run parameters the calculation uses, except the two folder names and (if all channels are treated) the channel index: integers, flags and strings exactly, the two constants of the Chebyshev grid to three decimals; no other text file has changed, and a refused start changes none. Two calculations with the same record have the same recorded parameters (grid constants within 0.001). A calculation can be repeated from its record: the input file with one line key=value per recorded parameter is accepted and gives the same parameters, if strings contain no white space and grid constants have at most three decimals. Not true, and shown: grid scales 100 and 100 + 2^-14 leave the same record; and the record itself, given as the input file, is accepted without effect - the default calculation runs.',
'all command lines, input files, numbers of threads, parameter values, earlier contents of the folder','the record must tell every combination of values of 35 parameters of four types; lossiness only shows for values nobody tests',
['CPP/set_run_parameters.cpp: create_input_printout_string, type_to_string, set_run_parameters', 'CPP/disk_io_routines.cpp: store_run_parameters, open_file'])
p('The kinematics table',
'The file q_kinematics_Nq_N.txt, written in every run, contains N+1 boundary rows and N mid-point rows in this order, each with its index and momentum, c.m. energy and lab energy to nine digits; the values of a mid-point row are the on-shell momentum, c.m. energy and lab energy the calculation uses for that bin (bins wider than 0.11 %), and the lab energy read from an inner mid-point row, requested in the energy file, makes the program compute at that row and at most its two neighbours. Mid-point rows lie between their boundary rows in all three columns (bins wider than 0.11 %). Not true, and shown: the statement in the file that the energies of the second table are the mid-points of those of the first (they differ by a relative 0.4-0.9e-4 at the deuteron, since two masses are used; equality holds for one binding energy near -2.6 MeV only); the order for bins narrower than 0.003 %; and the first and last row, whose energy is dropped silently when rounded outwards.',
'all grids, binding energies, requested energies, values of the doubles written','the table is written for users to pick energies from; agreement with the search must hold for every grid',
['CPP/make_swp_states.cpp: store_swp_kinematics, make_swp_states', 'CPP/disk_io_routines.cpp: store_q_WP_kinematics_txt', 'CPP/run_organizer.cpp: find_on_shell_bins'])
p('The Gauss-Legendre routine terminates with the right rule for every number of points',
"For every number of points N (1 to ten million) the quadrature routine used for all momentum meshes comes to an end: no root needs more than seven Newton passes. Whatever the output arrays held before, they then contain the N-point Gauss-Legendre rule: N strictly increasing nodes inside (-1,1), each within 3e-31 (N+1/2)^2 of the true node, positive weights, each within a relative 1e-15 (N+1/2)^2 of the true weight; polynomials of degree below 2N are integrated over (-1,1), or over a bin [a,b] after mapping, with an error of at most (b-a)(N+1/2)^2 (1e-15 max|f| + 3e-31 (b-a)/2 max|f'|).",
'all numbers of points up to ten million, all previous array contents, all polynomials of degree below 2N, all bins','the routine contains an unbounded loop; that it ends, finds every root once and gives the right weights for each N is a statement about all N',
['CPP/General_functions/gauss_legendre.cpp: gauss, updateRange_a_b'])
p('The meshes of the chiral potentials are Gauss-Legendre rules for every even number of points',
"For every even number of points (2 to ten million; the program uses 96, 50 and 30) and every interval, the mesh routine of the chiral potentials comes to an end after at most seven Newton passes per root and, whatever its uninitialised local variable and the output arrays held, stores that interval's Gauss-Legendre rule: strictly increasing points strictly inside the interval, positive weights, polynomials of degree below 2N integrated up to an explicit error. For an odd number of points of at least three the middle root's Newton loop is never entered, and the middle weight, made from the derivative left over from the previous root, is too small by at least a relative 1/(N+1/2)^2; for a single point the weight is made from a variable never set. No mesh of the program has an odd number of points.",
'all even and odd numbers of points up to ten million, all intervals, all contents of uninitialised variables and output arrays','the routine contains an unbounded loop and reads a variable it may not have set; the claim is about all mesh sizes and all such contents',
['CPP/Interactions/chp/chiral-twobody-potentials.f90: chp_setup_gauleg_mesh, setup_zmesh, chp_setup_2PE_2loop_int_data'])
p('The quadrature of the permutation matrix is delivered for every size, and is Gauss-Legendre in x and phi',
"For every number of phi points from 1 to 3000 and every interval of angles, the phi mesh of the permutation matrix is delivered: although its start values are made with 3.14159 in place of pi, every start value lies where Newton's method converges to the root with the same number, so GSL never stops the program and a hundred passes always suffice (also for the middle root of an odd mesh, where the relative convergence test compares with a vanishing root). The mesh is the interval's Gauss-Legendre rule: strictly increasing points strictly inside, each within 4e-18 (N+1/2)^2 of half the interval, positive weights within a relative 4e-18 (N+1/2)^4; polynomials of degree below 2N are integrated up to an explicit error. Together with the x mesh (any size up to ten million) the quadrature therefore exists for all sizes, meets the conditions under which the permutation matrix was proved correct (C85-C87), and the phi rule of each cell is its Gauss-Legendre rule.",
'all numbers of phi points up to 3000 and of x points up to ten million, all intervals, all cells of all grids','the statement is about all mesh sizes and all roots of each; that no start value leads to another root, to a GSL error or to a poor point cannot be sampled',
['CPP/auxiliary.cpp: roots, calc_gauss_points', 'CPP/make_permutation_matrix.cpp: calculate_WP_overlap, fill_P123_arrays'])
p("LO_internal's force is the exact partial-wave projection to an explicit accuracy",
"The angular integrals of one-pion exchange in LO_internal, computed with the program's own 150-point mesh, differ from the exact integrals over the cosine by at most pi gA^2/(4 fpi^2 mpi^2) (8/(1+mpi/Q)^(300-n-l) + 5e-11) for Legendre index n <= 101, momenta up to Q <= 10^6 MeV. Hence for every J up to 100 each of the six elements differs from regulator times (one-pion exchange with exact integrals times the isospin factor, plus contact term) by at most an explicit bound that is quadratic in the momenta and falls exponentially with 299-J; for momenta up to 1000 MeV it is below 1.3e-13 MeV^-2, while the S-wave element at rest is above 4e-6 MeV^-2.",
'all momenta from 0 to 10^6 MeV, all J up to 100, all six elements, whatever memory held before the mesh was made','the error is a maximum over a continuum of momenta and includes the error of the mesh itself; a test compares with another quadrature at chosen points',
['CPP/Interactions/OPEP.cpp: OPEP, angIntegral, potential', 'CPP/Interactions/OPEP.h: nz', 'CPP/Interactions/chiral_LO_internal.cpp: V', 'CPP/General_functions/gauss_legendre.cpp: gauss'])
p('One-pion exchange in the chiral potentials is projected exactly to an explicit accuracy',
"For IS_LO, IS_NLO, IS_N2LO, IS_N3LO and N2LOopt, every line of parameters, every pair of partial waves with J up to 38 and all momenta up to Q (at most twice the cutoff), the element the program computes with its own 96-point mesh differs from the force whose one-pion exchange is projected with the exact angular integral by at most regulator/(2 pi)^2 * 3 gA^2/(4 fpi^2) * (p+p')^2/mpi0^2 * (8/(1+mpi0/Q)^(191-J) + 2e-9). For IS_LO, which has no two-pion exchange, this is the whole force: its elements agree with the exact projection of one-pion exchange plus contact terms within 1e-11 MeV^-2 times the regulator.",
'the five models, all parameter lines, all momenta up to twice the cutoff, all partial waves with J up to 38, all isospin projections, whatever memory held before the mesh was made','the error is a maximum over a continuum of momenta and includes the error of the mesh itself; a test compares with another quadrature at chosen points',
['CPP/Interactions/chp/chiral-twobody-potentials.f90: chp, pwd_T, pwd_integral, setup_zmesh, nof_theta_int_points', 'CPP/Interactions/chiral_twobody.cpp: V'])
p('Result files are self-describing and lossless as whole texts',
'For every channel, potential name and mesh, every number of deuteron states below 1000 and every number of energies, the text of the elastic result file can be read without knowing the run: its head names JP, potential, Np and Nq; its data rows are first one row per pair (r,c) of deuteron states, with the name Urc, the indices and the quantum numbers l, 2j of both states, and then one row per energy with lab energy, c.m. energy, bin and the amplitudes, word 3+nd*r+c being amplitude (r,c). Two calculations whose files have the same text have the same channel, potential, mesh sizes, deuteron states, energies, bins and amplitudes, to the last bit. The breakup file has the same head, and its data rows are the rows of the breakup table in order, to the last bit.',
'all channels of either parity, all one-word potential names, all mesh sizes, all numbers of deuteron states below 1000 and of energies, all finite values','a golden-file test compares one text; that no two different results produce the same file is a statement about all pairs of results',
['CPP/disk_io_routines.cpp: store_U_matrix_elements_txt, store_U_BU_matrix_elements_txt'])
p("Complete runs with the program's own grids and meshes",
"A run whose bins come from the Chebyshev formula (any positive scale and sparseness), whose permutation quadrature is the one the program makes (any Nx up to ten million, any Nphi up to 3000) and whose chiral force uses the program's own 96-point angular mesh leaves, for every channel and every line of the parameter file, the files of C115 with the force of that line - nothing about grids or meshes is assumed, their properties follow from the routines that make them. For IS_LO the force in every file equals one-pion exchange plus contact terms with the constants of its line, projected with the exact angular integral, up to 1e-11 MeV^-2 times the regulator, for momenta up to 900 MeV and J up to 38. The same without a walk for any Hermitian potential. The meshes exist for all these sizes, whatever memory held.",
'all chiral models, parameter files, sizes, scales, channels, parameter sets, thread orders, contents of fresh memory; matrices computed or read from a file','a statement about the composition of every routine of the program for all inputs; a test covers one run',
['CPP/main.cpp: main', 'CPP/make_wp_states.cpp: make_chebyshev_distribution', 'CPP/make_permutation_matrix.cpp: fill_P123_arrays', 'CPP/General_functions/gauss_legendre.cpp: gauss', 'CPP/Interactions/chp/chiral-twobody-potentials.f90: setup_zmesh'])
p('Rounding in the kinematic conversions',
'Executed in IEEE double precision, lab energy to c.m. momentum has a relative error of at most 4e-15 for every lab energy between 1e-50 and 1e50 MeV and every deuteron binding energy between 0 and 3 MeV; the four conversions between c.m. energies and momenta have at most 2e-15; c.m. momentum to lab energy, whose root formula cancels, has an absolute error of at most 1e-14 (m_p + q^2/m_d) for momenta from 1e-50 to 1e50 MeV, i.e. 1e-11 MeV below 700 MeV.',
'all doubles in these ranges; every arithmetic unit that rounds to a nearest double (ties either way)','there are 2^64 arguments; a test sees a few',
['CPP/General_functions/kinetic_conversion.cpp: lab_energy_to_com_momentum', 'CPP/General_functions/kinetic_conversion.cpp: com_momentum_to_lab_energy', 'CPP/General_functions/kinetic_conversion.cpp: com_energy_to_com_q_momentum', 'CPP/constants.h: MN'])
p('The momentum grid in double precision',
"The Chebyshev boundaries as computed in double precision, with the program's M_PI and the C library's tan and pow, start at 0 and increase strictly: rounding never merges or reorders two boundaries, for up to a million bins, sparseness from 1e-6 to 20 and scale from 1e-100 to 1e100. Every boundary has a relative error of at most 3e-15 N (t+1). Every bin's computed norm is positive (no division by zero later) and its computed midpoint lies strictly inside the bin.",
'all numbers of bins, scales and sparseness degrees in these ranges; every arithmetic unit that rounds to a nearest double and every library with tan and pow accurate to 2^-52','every N, t and scale, and every conforming library',
['CPP/make_wp_states.cpp: make_chebyshev_distribution', 'CPP/make_wp_states.cpp: p_normalization', 'CPP/make_wp_states.cpp: make_fwp_statespace'])
p('The on-shell search in double precision',
'Executed in IEEE double precision, the search for on-shell bins never stops the program, whatever energies are requested: the lab energies it returns increase strictly, each is the midpoint energy of its bin up to 1e-11 MeV + 2e-14 T, although it goes through a root formula that cancels; the bin index found from the recomputed momentum is the index of that same bin, and the computed on-shell momentum lies strictly inside it, within 7e-5 of the exact one. Every requested energy between the first and the last midpoint energy is bracketed by two neighbouring computed energies. The grids the program computes for itself (up to 400 bins, sparseness 1 to 20, first boundary at least 0.026 MeV) meet the hypotheses.',
'all grids of doubles from 0 to at most 1e9 MeV with first boundary at least 0.025 MeV and bins wider than 0.11 %, all binding energies between 0 and 3 MeV, all lists of energies; every arithmetic unit that rounds to a nearest double','a search that rounds a momentum into the neighbouring bin fails only for particular grids and energies',
['CPP/run_organizer.cpp: find_on_shell_bins', 'CPP/General_functions/kinetic_conversion.cpp: com_momentum_to_lab_energy', 'CPP/General_functions/kinetic_conversion.cpp: lab_energy_to_com_momentum', 'CPP/make_wp_states.cpp: make_chebyshev_distribution'])
p('What the user is told about options',
"When the program accepts a command line, it has printed for every argument, in order, exactly this: the usage for -h/--help; for an input file one report per line that gives a value to a name that is no option, showing the line, then the name of the file; for any other argument a report if it has no '=' or gives a value to a name that is no option; finally a note exactly if the requested number of threads exceeds Nq_WP. So no misspelt option goes unnoticed, and nothing else is reported. A run that stops while reading has printed a beginning of this list. The exception, proved too: lines of an input file without '=' (and options without a value) are dropped without a word.",
'all argument lists, all contents of input files, all numbers of hardware threads','a missing report shows only for particular misspellings and places in the input',
['CPP/set_run_parameters.cpp: read_and_set_parameter', 'CPP/set_run_parameters.cpp: read_input_list_and_set_parameters', 'CPP/set_run_parameters.cpp: unrecognised_option', 'CPP/set_run_parameters.cpp: set_run_parameters'])
p('Memory safety of the calculation',
'During the calculation of the permutation matrix of a 3N channel and the set-up and solution of its Faddeev equations (bin boundaries of the scattering wave packets, resolvent, iterative solver, breakup amplitudes) no array is read or written outside its bounds, for every accepted truncation with the tensor force, interaction, number of bins, quadrature points, energies and deuteron states, and every stored permutation matrix, with these exceptions, each shown to be real: (a) the loop that prepares the next approximant computes the element before the first one of the approximant arrays; (b) with a single p bin the element before the first bin energy is read; (c) with more than 100 solver threads and more than 100 columns in a chunk the fixed array of 100 counters is overrun; (d) with P123_omp_num_threads=0 one thread writes to arrays of no element. The number of solver threads is that of the machine only until the first permutation matrix has been computed; from then on it is P123_omp_num_threads, the call meant to change it back having no effect.',
'all accepted parameters, 3N channels, interactions, permutation matrices, on-shell energies, thread numbers and every index any of the modelled loops can produce','an access outside an array usually goes unnoticed, and each index is a product of many independent sizes',
['CPP/make_permutation_matrix.cpp: calculate_permutation_elements_for_3N_channel', 'CPP/make_swp_states.cpp: make_swp_bin_boundaries', 'CPP/make_resolvent.cpp: calculate_resolvent_array_in_SWP_basis', 'CPP/solve_faddeev.cpp: pade_method_solve', 'CPP/main.cpp: main'])
p('No array is freed twice or used after it is freed; which are never freed',
'In a run of the program no array is freed twice, no delete [] meets a pointer that is not set or an array already freed, and every array handed to a calculation has been allocated and not yet freed, with every combination of options (midpoint approximation, calculating, reading or recovering permutation matrices, solving, breakup, dense solver) and any number of threads, 3N channels, parameter sets, files and iterations. The arrays that are still allocated at the end are exactly: the states and grids (22, or 20 with the midpoint approximation); for each 3N channel the 6 arrays of the quadrature if permutation matrices are calculated, and the column pointers of the permutation matrix if the equations are solved; and for each 3N channel and parameter set 18 arrays (kernel tables, kinematics, flags of the potential) and one for every 3N channel (deuteron states), 3 more with breakup and 2 more with the iterative solver. So memory grows with every parameter set.',
'all option combinations, numbers of threads, channels, parameter sets and iterations, all runs that reach the end, and (for the faults) all runs that an error ends somewhere','double frees and leaks depend on which options occur together and on how often loops are run; a test sees neither a leak nor, usually, a use after free',
['CPP/main.cpp: main', 'CPP/make_permutation_matrix.cpp: fill_P123_arrays', 'CPP/make_permutation_matrix.cpp: calculate_permutation_elements_for_3N_channel', 'CPP/solve_faddeev.cpp: pade_method_solve', 'CPP/solve_faddeev.cpp: solve_faddeev_equations', 'CPP/run_organizer.cpp: find_on_shell_bins', 'CPP/make_swp_states.cpp: make_swp_states'])
p('Where threads meet, and why results do not depend on the order of threads',
'In the parallel loops (phi meshes and overlaps, 6j symbols, Clebsch-Gordan coefficients, elements of the permutation matrix, first rows and columns of the kernel) two threads never access the same array element with one of them writing, for every division of the iterations among threads, except at the counters of finished rows, which thread 0 reads for its progress line while others count; these are a data race exactly if thread 0 and another thread have rows. The four loops that put the thread files in order are executed in full by every thread, so with two threads every element is written by both: a data race, but each element gets the value of its iteration in every order. So whatever the order in which threads run, the arrays end with the same contents. Nothing keeps threads apart while they write full buffers to their files with HDF5: two can be writing at the same moment exactly if two threads find at least as many elements as a buffer holds.',
"all sizes, numbers of threads, divisions of iterations among threads and interleavings of the threads' assignments",'races show up rarely and differently on each machine; interleavings cannot be enumerated',
['CPP/make_permutation_matrix.cpp: calculate_WP_overlap', 'CPP/make_permutation_matrix.cpp: calculate_permutation_elements_for_3N_channel', 'CPP/make_permutation_matrix.cpp: read_and_merge_thread_files_to_single_array', 'CPP/solve_faddeev.cpp: calculate_all_CPVC_rows', 'CPP/solve_faddeev.cpp: pade_method_solve'])
p('A quadrature without points gives an empty permutation matrix that later runs accept',
"Nx=0 or Nphi=0 is not refused. The permutation matrix then computed has no element, whatever the basis, grid, number of threads and contents of memory, and the file written is accepted by every later run of the same basis and grid, whatever that run's own Nx and Nphi: it then works with the zero permutation matrix, with no message.",
'all bases, grids, quadratures with Nx=0 or Nphi=0, GSL functions meeting the contract, thread schedules, memory contents and later runs','tests use sensible quadratures; that nothing downstream notices must hold for every grid and later run',
['CPP/make_permutation_matrix.cpp: fill_P123_arrays', 'CPP/make_permutation_matrix.cpp: calculate_WP_overlap', 'CPP/disk_io_routines.cpp: read_sparse_permutation_matrix_for_3N_channel_h5', 'CPP/set_run_parameters.cpp: read_and_set_parameter'])
exec(open('/tmp/over.py').read())
open('/verif/properties.jsonl','w').write(''.join(json.dumps(x)+"\n" for x in P))
print(len(P))
