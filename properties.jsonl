{"id": "C01", "title": "Partial-wave basis is exactly the set of allowed three-nucleon states", "statement": "For any J_2N_max >= 0, positive odd two_J_3N_max and any isospin_breaking_1S0 flag, the basis built by construct_symmetric_pw_states contains a tuple (L,S,J,T,l,2j,2J3,2T3,P) if and only if it obeys the angular-momentum and isospin coupling rules, the generalised Pauli rule (L+S+T odd), P=(-1)^(L+l), J<=J_2N_max, 2J3 odd and <= two_J_3N_max, and either 2T3=1, or (isospin breaking on) 2T3=3 with the pair in 1S0.", "quantifier": "all truncations J_2N_max, two_J_3N_max, both flag values, all nine-tuples of integers", "why_tests_cant": "the basis is an unbounded family indexed by the truncations; a test can only compare a few tables", "anchors": ["CPP/make_pw_symm_states.cpp: construct_symmetric_pw_states"]}
{"id": "C02", "title": "No partial-wave state is listed twice", "statement": "For every truncation and flag the nine arrays never describe the same state at two different positions.", "quantifier": "all truncations, all pairs of positions", "why_tests_cant": "unbounded family of truncations", "anchors": ["CPP/make_pw_symm_states.cpp: construct_symmetric_pw_states"]}
{"id": "C03", "title": "3N-channels are contiguous, non-empty, ordered blocks", "statement": "For every accepted truncation there are exactly two_J_3N_max+1 three-nucleon channels; chn_3N_idx_array starts at 0, is strictly increasing, ends at Nalpha; all states in one block share (J3,P) and two states in different blocks differ in (J3,P); channel c has 2J3 = 2*(c/2)+1 and P=+1 for even c and -1 for odd c.", "quantifier": "all truncations, all channels", "why_tests_cant": "unbounded family of truncations; channel_idx (cluster runs) depends on the numbering", "anchors": ["CPP/make_pw_symm_states.cpp: construct_symmetric_pw_states", "CPP/main.cpp: main"]}
{"id": "C04", "title": "Every elastic channel is found and labelled unambiguously", "statement": "find_deuteron_channels returns, for every 3N channel, exactly the positions (relative to the channel start) of the states whose pair has deuteron quantum numbers 3S1,T=0; for J_2N_max>=1 there are exactly 2 of them for J3=1/2 and exactly 3 for J3>=3/2, so the nine header labels U00..U22 of the output file are enough for every channel.", "quantifier": "all truncations and all channels", "why_tests_cant": "unbounded family of truncations", "anchors": ["CPP/run_organizer.cpp: find_deuteron_channels", "CPP/disk_io_routines.cpp: store_U_matrix_elements_txt", "CPP/constants.h"]}
{"id": "C05", "title": "Two-nucleon storage slots are in range and not shared between different interactions (tensor force on)", "statement": "With tensor_force=true, for every state in the basis the slot used for its 2N potential, SWP energies and coefficient matrix lies inside the array allocated in main, and two basis states get the same slot exactly when they belong to the same 2N interaction channel (same S and J, and same L unless both are tensor-coupled; 1S0 is its own coupled channel under isospin breaking).", "quantifier": "all truncations, both isospin flags, all pairs of basis states", "why_tests_cant": "index arithmetic over an unbounded family; an aliasing slot silently mixes interactions", "anchors": ["CPP/make_pw_symm_states.cpp: unique_2N_idx", "CPP/main.cpp: main (array sizes)"]}
{"id": "C06", "title": "Two-nucleon storage slots with tensor_force=false", "statement": "With tensor_force=false and isospin_breaking_1S0=false every basis state gets a non-negative slot and different 2N channels get different slots; every slot is inside the allocated array exactly when J_2N_max is at most 1. (A user expects it always: for every J_2N_max >= 2 some state's slot is beyond the array.)", "quantifier": "all J_2N_max", "why_tests_cant": "out-of-range writes only appear at sizes a unit test may not use (false of this code for J_2N_max>=2)", "anchors": ["CPP/make_pw_symm_states.cpp: unique_2N_idx", "CPP/main.cpp: main (array sizes)"]}
{"id": "C07", "title": "Which flag combinations run", "statement": "The loops over two-nucleon channels (potential and scattering wave packets) run to the end exactly when tensor_force is on or isospin_breaking_1S0 is off, for every truncation; otherwise the run stops. (A user expects every documented combination to run: with the default isospin flag no tensor_force=false run does.)", "quantifier": "all truncations, both flags", "why_tests_cant": "an unconditional abort for a flag combination is a fact about all inputs (false of this code)", "anchors": ["CPP/make_pw_symm_states.cpp: unique_2N_idx", "CPP/make_potential_matrix.cpp"]}
{"id": "C08", "title": "Options: last assignment wins, everything else keeps its default", "statement": "After processing any argument list whose values are well formed, each run parameter equals the last value assigned to its key (in argument order, with input files expanded in place), and every parameter never assigned has its default (as listed in a table of default texts); unknown keys and unrecognised arguments change nothing.", "quantifier": "all argument lists and all file contents", "why_tests_cant": "unbounded argument and file sequences", "anchors": ["CPP/set_run_parameters.cpp: set_run_parameters, read_and_set_parameter, read_input_file, set_default_values"]}
{"id": "C09", "title": "Which values are accepted for a key", "statement": "An argument list is read to the end exactly when every argument is long enough, it is not a lone help flag, and every assigned value is of its key's type: true/false for flags, a number for doubles, a text that begins with a 32-bit integer for integers - and that integer is the value used. (README says a value of the wrong type stops the program; an integer key given 32.5 or 7x silently takes the integer it begins with.)", "quantifier": "all keys, all value strings", "why_tests_cant": "all strings (false of this code: stoi/stod accept a numeric prefix; booleans are checked exactly)", "anchors": ["CPP/set_run_parameters.cpp: read_and_set_parameter", "README.md"]}
{"id": "C10", "title": "When the option parser throws", "statement": "With valid flag values and no lone help flag, the parser ends in an uncaught exception exactly when an argument other than -h has fewer than four characters or a numeric key is given a text that does not begin with a number; every other unrecognised argument is skipped. (A user expects that no argument does.)", "quantifier": "all argument strings", "why_tests_cant": "all strings (false of this code for arguments shorter than four characters)", "anchors": ["CPP/set_run_parameters.cpp: set_run_parameters"]}
{"id": "C11", "title": "key=value is an assignment unless the value ends in .txt", "statement": "For every known key and every non-empty well-formed value that does not end in .txt, key=value sets that parameter and no other; key=value with a value ending in .txt sets nothing (it is taken for a file of parameters). (A user expects energy_input_file=my.txt to be an assignment.)", "quantifier": "all known keys, all non-empty values", "why_tests_cant": "all strings (false of this code for values ending in .txt, which are taken as the name of an input file)", "anchors": ["CPP/set_run_parameters.cpp: set_run_parameters"]}
{"id": "C12", "title": "Accepted configurations satisfy the documented constraints", "statement": "If the option parser returns, then two_J_3N_max is positive and odd, parallel_run implies channel_idx != -1, and the number of threads is at most Nq_WP; conversely any configuration meeting these is accepted unchanged apart from lowering the thread count to Nq_WP.", "quantifier": "all configurations", "why_tests_cant": "all integers", "anchors": ["CPP/set_run_parameters.cpp: set_run_parameters"]}
{"id": "C13", "title": "Splitting a run over channels gives the same work as one run", "statement": "The multiset of (channel, parameter set) jobs, and the set of output file names, of the N_chn separate runs with parallel_run=true, channel_idx=0..N_chn-1 equals that of one run with parallel_run=false; no job is done twice and none is missed.", "quantifier": "all truncations, all parameter ranges", "why_tests_cant": "unbounded family of channel counts and splits", "anchors": ["CPP/main.cpp: main"]}
{"id": "C14", "title": "Different work never writes to the same file", "statement": "Two runs/jobs writing U-matrix or P123 files to the same folder write to different file names whenever they differ in Np_WP, Nq_WP, J3, parity, J_2N_max or parameter-set index (or thread and sequence number for partial P123 files).", "quantifier": "all values of the key fields", "why_tests_cant": "injectivity of a string encoding over unbounded integers", "anchors": ["CPP/main.cpp: file_identification", "CPP/make_permutation_matrix.cpp: fill_P123_arrays, calculate_permutation_matrix_for_all_3N_channels"]}
{"id": "C15", "title": "The permutation matrix does not depend on threads, schedule or buffer size", "statement": "For any number of threads, any assignment of rows to threads, any order in which threads process and flush, and any positive buffer size, the P123 that is merged from the partial files and stored is the same row-major list of the non-zero elements of the matrix.", "quantifier": "all thread counts, all schedules, all buffer sizes, all matrices", "why_tests_cant": "a test runs one schedule; buffer flushing needs gigabytes to trigger", "anchors": ["CPP/make_permutation_matrix.cpp: calculate_permutation_elements_for_3N_channel, read_P123_bin_files / merge"]}
{"id": "C16", "title": "When P123 recovery gives back the computation", "statement": "After a calculation whose partial files are on an otherwise empty disk, a run with P123_recovery=true reads r files per thread, r being estimated from the dimension and the overlap table, and gets exactly the first r*B elements of every thread (B: size of a thread buffer); the result is the P123 of the uninterrupted run exactly when no thread produced more than r*B elements. For every dense dimension up to 5792 r is 0 and the recovered matrix is empty. (A user expects the same P123 always.)", "quantifier": "all problem sizes, all thread counts, all load distributions", "why_tests_cant": "crash point and file counts range over all sizes (false of this code: the number of files to read is estimated)", "anchors": ["CPP/make_permutation_matrix.cpp: P123_recovery branch"]}
{"id": "C17", "title": "Stored P123 reads back exactly", "statement": "Reading back a P123 file written for the same basis and grid returns the same values, row and column indices and count, for every sparse matrix.", "quantifier": "all matrices, all bases and grids", "why_tests_cant": "round-trip over all contents (the count is narrowed to a C int on the way)", "anchors": ["CPP/disk_io_routines.cpp: store_sparse_permutation_matrix_for_3N_channel_h5, read_sparse_permutation_matrix_for_3N_channel_h5"]}
{"id": "C18", "title": "A P123 file made for other parameters is rejected", "statement": "Reading a P123 file succeeds only if the file's Nalpha, Np_WP, Nq_WP, all bin boundaries, all nine quantum-number arrays agree with those of the current run; otherwise the program stops with an error.", "quantifier": "all pairs of (stored, current) bases and grids", "why_tests_cant": "all pairs of configurations", "anchors": ["CPP/disk_io_routines.cpp: read_sparse_permutation_matrix_for_3N_channel_h5"]}
{"id": "C19", "title": "Sorting and compressing P123 preserves the matrix", "statement": "For every list of sparse elements with in-range indices, sorting to column-major order and converting to CSC (or CSR) gives the same matrix: the elements stored for column c are exactly the input elements with column c, in increasing row order.", "quantifier": "all sparse matrices", "why_tests_cant": "all sizes and orders", "anchors": ["CPP/General_functions/matrix_routines.cpp: unsorted_sparse_to_coo_col_major_sorter, coo_to_csc_format_converter, coo_to_csr_format_converter"]}
{"id": "C20", "title": "Flat array layouts are bijections", "statement": "The flat index of (alpha,q,p) in vectors, of (alpha', q',p') in rows, of (q',p',q,p) in the overlap table, of (row deuteron, column deuteron, energy) in U, and of the upper triangle in the packed Hamiltonian, is a bijection onto the allocated range; decoding recovers the tuple.", "quantifier": "all dimensions and all tuples", "why_tests_cant": "index arithmetic over unbounded sizes", "anchors": ["CPP/make_permutation_matrix.cpp", "CPP/make_resolvent.cpp", "CPP/solve_faddeev.cpp", "CPP/make_swp_states.cpp"]}
{"id": "C21", "title": "Conversions between dense and COO", "statement": "Converting a dense matrix to COO keeps exactly its non-zero elements in row-major order. Converting COO to dense never delivers: with any entry it stores through an unallocated pointer, without entries the caller's pointer stays unset. (A user expects the second conversion to invert the first.)", "quantifier": "all matrices", "why_tests_cant": "all matrices (the COO-to-dense direction is false of this code: it nulls the output pointer)", "anchors": ["CPP/General_functions/matrix_routines.cpp: square_dense_to_sparse_COO_format_converter, square_sparse_COO_to_dense_format_converter"]}
{"id": "C22", "title": "Kinematic conversions are mutually inverse", "statement": "lab energy <-> c.m. momentum, c.m. momentum <-> c.m. energy (both Jacobi momenta) are exact inverse pairs on non-negative arguments and strictly increasing, in exact arithmetic.", "quantifier": "all non-negative reals, all bound-state energies with positive deuteron mass", "why_tests_cant": "continuum of inputs", "anchors": ["CPP/General_functions/kinetic_conversion.cpp"]}
{"id": "C23", "title": "Wave-packet grids are ordered and start at zero", "statement": "For every N>=1, positive scale and positive sparseness, the Chebyshev boundaries are 0=b0<b1<...<bN, so the bins partition [0,bN); every momentum below bN lies in exactly one bin.", "quantifier": "all N, scale, sparseness, all momenta", "why_tests_cant": "continuum of parameters", "anchors": ["CPP/make_wp_states.cpp: make_chebyshev_distribution, make_p_bin_grid, make_q_bin_grid"]}
{"id": "C24", "title": "When a custom q grid is used", "statement": "The q grid comes from the user's file exactly when the q type is not chebyshev and the p type is custom; it is the Chebyshev grid exactly when the q type is chebyshev; every other combination stops with an error - in particular q_grid_type=custom with a Chebyshev p grid. (A user expects the file to be used whatever the p grid type.)", "quantifier": "all combinations of grid types", "why_tests_cant": "all combinations (false of this code)", "anchors": ["CPP/make_wp_states.cpp: make_q_bin_grid"]}
{"id": "C25", "title": "What a custom grid file does", "statement": "A grid file is accepted exactly when it has N+1 lines, all numbers, and then those are the boundaries; memory outside the N+1 boundaries is written exactly when the first N+2 lines are numbers; every other file is rejected with an error. (A user expects too long files to be rejected before anything is written.)", "quantifier": "all file contents, all N", "why_tests_cant": "all files (false of this code for files with more than N+1 lines)", "anchors": ["CPP/disk_io_routines.cpp: read_WP_boundaries_from_txt"]}
{"id": "C26", "title": "Quadrature points stay in their bin and keep the rule's exactness", "statement": "For every bin and every quadrature rule on (-1,1), the mapped points lie in the bin, the mapped weights add up to the bin width, and the mapped rule integrates f over the bin exactly whenever the original rule integrates the pulled-back f exactly.", "quantifier": "all bins, all rules, all integrands", "why_tests_cant": "continuum of inputs", "anchors": ["CPP/General_functions/gauss_legendre.cpp: updateRange_a_b", "CPP/make_wp_states.cpp: make_p_bin_quadrature_grids"]}
{"id": "C27", "title": "The permutation of Jacobi momenta conserves kinetic energy and its angles are physical", "statement": "For all p,q>=0 and -1<=x<=1 the permuted momenta satisfy pbar^2+3/4 qbar^2=p^2+3/4 q^2, the radicands are non-negative and the two cosines lie in [-1,1] (so the clamping only removes rounding error), whenever the permuted momentum is non-zero.", "quantifier": "all real p,q,x", "why_tests_cant": "continuum of inputs", "anchors": ["CPP/auxiliary.cpp: pi1_tilde, pi2_tilde, Gtilde_subarray_new"]}
{"id": "C28", "title": "P123 elements vanish between energetically incompatible cells", "statement": "If no momenta in the two cells have equal kinetic energy p^2+3/4 q^2 then the computed P123 element between them is exactly zero; skipping such cells is therefore safe.", "quantifier": "all cells, all quadrature rules", "why_tests_cant": "continuum of inputs", "anchors": ["CPP/auxiliary.cpp: calculate_P123_element_in_WP_basis_mod", "CPP/make_permutation_matrix.cpp: pWP_qWP overlap check"]}
{"id": "C29", "title": "Legendre recursion yields the Legendre polynomials", "statement": "For every degree n and every x, the recursion used for angular integrals returns P_n(x): P_n(1)=1, parity (-1)^n, and it solves Legendre's differential equation of degree n.", "quantifier": "all degrees, all x", "why_tests_cant": "infinitely many degrees and points", "anchors": ["CPP/General_functions/legendre.cpp: findRoot, findRoots"]}
{"id": "C30", "title": "The built-in LO potential is Hermitian and respects isospin", "statement": "For every J up to the documented limit of 100 and all momenta, exchanging the two momenta transposes the potential: the four diagonal-type elements are symmetric and V(+-)(qi,qo)=V(-+)(qo,qi); the isospin factor is -3 for T=0 and +1 for T=1 where L+S+T is odd.", "quantifier": "all J, all momenta", "why_tests_cant": "continuum of inputs", "anchors": ["CPP/Interactions/OPEP.cpp: potential, isoFac", "CPP/Interactions/chiral_LO_internal.cpp: V"]}
{"id": "C31", "title": "The right potential component is used for each pair of states", "statement": "For every bra/ket pair (L',L,S,J) allowed by coupling rules, the element taken from the six-component potential array is the component the array documents for (coupled?,S,L',L relative to J), and with the tensor force on the assembled potential matrix of a channel is symmetric when the potential is Hermitian, in every integration and isospin mode.", "quantifier": "all J and all L,L'", "why_tests_cant": "unbounded J", "anchors": ["CPP/make_potential_matrix.cpp: extract_potential_element_from_array"]}
{"id": "C32", "title": "Isospin averaging of the pair interaction", "statement": "For T=1 pairs without 1S0 breaking the interaction used is 2/3 V_nn + 1/3 V_np; with breaking, the 1S0 block over T3=1/2,3/2 is [[2/3 nn+1/3 np, sqrt2/3 (nn-np)],[same,1/3 nn+2/3 np]]. With the tensor force on, the whole stored matrix is the wave-packet average of this interaction for every potential exactly when midpoint_approx is not combined with isospin breaking; in that combination the 1S0 pair gets the plain average (2/3 nn + 1/3 np) of components of V that belong to coupled waves, all other pairs the right interaction. (A user expects it in every mode.)", "quantifier": "all nn and np interactions, both quadrature modes", "why_tests_cant": "continuum of values and all channels (false of this code with midpoint_approx)", "anchors": ["CPP/make_potential_matrix.cpp: calculate_potential_matrices_array_in_WP_basis"]}
{"id": "C33", "title": "Free-Hamiltonian elements are the exact bin averages", "statement": "The kinetic-energy element assigned to a bin equals the average of p^2/(2 mu) over the bin, lies strictly between the energies of its end points, and increases with the bin.", "quantifier": "all bins", "why_tests_cant": "continuum of inputs", "anchors": ["CPP/make_swp_states.cpp: construct_free_hamiltonian"]}
{"id": "C34", "title": "Each 2N channel is diagonalised exactly once and the 3S1 deuteron is recognised", "statement": "While building SWP states every 2N interaction channel occurring in the basis is diagonalised exactly once (not skipped, not repeated), and the bound-state search for the deuteron is applied exactly to the coupled 3S1-3D1 channel.", "quantifier": "all truncations and isospin flags, tensor force on", "why_tests_cant": "unbounded family of bases", "anchors": ["CPP/make_swp_states.cpp: make_swp_states"]}
{"id": "C35", "title": "Reordering a coupled spectrum keeps eigenpairs together", "statement": "reorder_coupled_eigenspectrum moves eigenvalue k and eigenvector column k to the same new position for every k, and the new order is a permutation (even positions first, then odd).", "quantifier": "all sizes, all spectra", "why_tests_cant": "unbounded sizes", "anchors": ["CPP/make_swp_states.cpp: reorder_coupled_eigenspectrum"]}
{"id": "C36", "title": "Scattering wave-packet boundaries are ordered and enclose the eigenvalues", "statement": "For a strictly increasing positive spectrum (with one negative value for 3S1, and then at least three bins: with two bins the claim is false) the SWP boundaries are strictly increasing, start at 0 (3S1: start at the bound-state energy then 0) and bin i contains eigenvalue i.", "quantifier": "all spectra, all sizes >= 2 per block", "why_tests_cant": "continuum of spectra", "anchors": ["CPP/make_swp_states.cpp: make_swp_bin_boundaries"]}
{"id": "C37", "title": "Unphysical bound states stop the run", "statement": "The run continues only if the 3S1 channel has exactly one negative eigenvalue and every other channel none, and then E_bound is that eigenvalue.", "quantifier": "all spectra", "why_tests_cant": "all spectra", "anchors": ["CPP/make_swp_states.cpp: look_for_unphysical_bound_states"]}
{"id": "C38", "title": "Requested energies are bracketed by two computed energies", "statement": "A requested lab energy is bracketed by two neighbouring wave-packet midpoint energies that are both in the output exactly when it lies between the first and the last midpoint energy; outside it is dropped silently. (A user expects every requested energy to be bracketed.)", "quantifier": "all grids, all energy lists", "why_tests_cant": "all inputs (false of this code for energies outside the first/last midpoint, which are dropped silently)", "anchors": ["CPP/run_organizer.cpp: find_on_shell_bins"]}
{"id": "C39", "title": "On-shell rows are distinct, ordered and in range", "statement": "The list of on-shell energies is strictly increasing, without duplicates, each is the midpoint energy of its q bin, each recorded bin index is in range and is the index of that bin (for bins wider than 0.11 percent; the index is wrong for narrower bins because two different masses are used).", "quantifier": "all grids, all energy lists", "why_tests_cant": "all inputs", "anchors": ["CPP/run_organizer.cpp: find_on_shell_bins"]}
{"id": "C40", "title": "Which breakup cells are recorded", "statement": "Below the breakup threshold no cell is recorded; above it, exactly the cells whose energies contain E_com and for each of them one neighbour in q, one in p and the diagonal one, chosen by the side on which E_com lies; the offsets delimit each energy's own cells. Indices can therefore be -1 or N: for a cell in the first p bin with E_com below its middle, index -1 is recorded. (A user expects all indices to be inside the grids.)", "quantifier": "all grids and energies", "why_tests_cant": "all inputs (false of this code: neighbour cells are not bounds-checked)", "anchors": ["CPP/run_organizer.cpp: find_on_shell_bins (breakup branch)"]}
{"id": "C41", "title": "Resolvent has the right analytic structure (bound-continuum)", "statement": "For the deuteron-nucleon resolvent of a bin, the imaginary part is -pi/width when the on-shell energy is inside the bin and 0 when it is outside, and the real part is the exact bin average of the principal-value 1/(E-E').", "quantifier": "all bins and energies off the bin edges", "why_tests_cant": "continuum of inputs", "anchors": ["CPP/make_resolvent.cpp: resolvent_bound_continuum"]}
{"id": "C42", "title": "Resolvent has the right analytic structure (continuum-continuum)", "statement": "For a continuum cell the imaginary part is never positive, is zero when the energy is outside the cell's energy range, and is symmetric in the two sub-energies, and the value is the exact average of 1/(E+i0-E') over the cell (off the corner energies).", "quantifier": "all cells and energies", "why_tests_cant": "continuum of inputs", "anchors": ["CPP/make_resolvent.cpp: resolvent_continuum_continuum"]}
{"id": "C43", "title": "The on-the-fly kernel equals C^T (1+...)PVC of the stored matrices", "statement": "For every sparse P123 and every block-structured V*C and C, the column and row routines of the solver return exactly the corresponding column of 2*C^T*P123*V*C.", "quantifier": "all matrices, all channel structures", "why_tests_cant": "all matrices", "anchors": ["CPP/solve_faddeev.cpp: calculate_PVC_col, calculate_CPVC_col, calculate_all_CPVC_rows"]}
{"id": "C44", "title": "Neumann terms are the on-shell elements of A(GA)^n", "statement": "With any subset of rows dropped after convergence, the n-th stored coefficient of every still-active on-shell element is the exact matrix element of A(GA)^n.", "quantifier": "all matrices, all n, all drop schedules", "why_tests_cant": "unbounded iteration counts and schedules", "anchors": ["CPP/solve_faddeev.cpp: pade_method_solve"]}
{"id": "C45", "title": "Column chunking covers the matrix exactly once", "statement": "For every dimension, the chunks used for the multiplication are non-empty, in range and cover every column exactly once - exactly up to dimension 2^28; beyond, a chunk has no columns. (A user expects it for every dimension.)", "quantifier": "all dimensions and memory sizes", "why_tests_cant": "boundary cases at huge sizes", "anchors": ["CPP/solve_faddeev.cpp: pade_method_solve"]}
{"id": "C46", "title": "The Pade resummation is exact on rational series", "statement": "If the Neumann series of an element is the Taylor series of a rational function with numerator degree <= N and denominator degree <= M, the computed [N/M] Pade approximant equals that function's value (whenever the denominators do not vanish). For any series whatever, a returned value is p(z)/q(z) for an [N/M] Pade pair of the series, every pair gives the same value, and no value is returned exactly when some pair has q(z)=0.", "quantifier": "all N,M, all rational functions", "why_tests_cant": "continuum of series, all orders", "anchors": ["CPP/solve_faddeev.cpp: pade_approximant"]}
{"id": "C47", "title": "Every on-shell element gets a final value", "statement": "When the Pade solver returns, every elastic and breakup element has a value from one of its computed approximants, of order at most 14 - unless the solver stopped because the number of accepted elements of both kinds reached the number of elastic ones: then, if there are breakup elements, at least one element was never assigned and is read through an index that was never written. Without breakup the result is always complete. (A user expects it always; a run in which the reported value is not an approximant is exhibited.)", "quantifier": "all coefficient sequences, with and without breakup", "why_tests_cant": "all convergence histories (false of this code with breakup channels; the previous-approximant slot is read out of range)", "anchors": ["CPP/solve_faddeev.cpp: pade_method_solve"]}
{"id": "C48", "title": "Direct solver and iterative solver solve the same equation", "statement": "A result of the dense solver satisfies U = A + A G U; whenever the Neumann series terminates its sum satisfies the same equation and equals the dense result when 1-AG is invertible.", "quantifier": "all matrices", "why_tests_cant": "all matrices", "anchors": ["CPP/solve_faddeev.cpp: faddeev_dense_solver"]}
{"id": "C49", "title": "When the column labels of the elastic table are right", "statement": "In the U-matrix output file row i holds energy i and the columns hold the elements row deuteron by column deuteron in row-major order; every column stands under the heading Ujk of its own element exactly when the channel has one or three deuteron states; with two the headings are wrong. (A user expects it for every number.)", "quantifier": "all array contents and sizes", "why_tests_cant": "all sizes", "anchors": ["CPP/disk_io_routines.cpp: store_U_matrix_elements_txt"]}
{"id": "C50", "title": "Parameter-set files are read completely", "statement": "For a rectangular file of numbers separated by single spaces the parser returns all numbers in order and the right number of sets and parameters per set.", "quantifier": "all files", "why_tests_cant": "all files", "anchors": ["CPP/disk_io_routines.cpp: read_parameter_sample_list"]}
{"id": "C51", "title": "Which parameter-set ranges stay inside the file", "statement": "All numbers read by a walk are numbers of the file exactly when the range PSI_start..PSI_end is empty or lies within 0..number of lines; the program's own check accepts exactly the ranges whose length is at most the number of lines, so ranges outside the file pass it. (A user expects that a started run reads sets of the file only.)", "quantifier": "all ranges, all file lengths", "why_tests_cant": "all integers (false of this code: only the length of the range is compared)", "anchors": ["CPP/main.cpp: main"]}
{"id": "C52", "title": "When the breakup output array is large enough", "statement": "With at least one recorded cell, all writes of breakup amplitudes are inside the allocation exactly when there are at most as many deuteron states as energies. (A user expects it always: one energy in a channel with two deuteron states writes outside.)", "quantifier": "all numbers of energies, deuteron states and breakup channels", "why_tests_cant": "all sizes (false of this code)", "anchors": ["CPP/main.cpp: main", "CPP/solve_faddeev.cpp"]}
{"id": "C53", "title": "Coupling-coefficient tables do not alias", "statement": "The flat index of the precomputed Clebsch-Gordan and 6j tables is injective and in range over all legal quantum numbers up to the table's maximum, so a lookup returns the coefficient stored for exactly those quantum numbers.", "quantifier": "all table sizes, all quantum numbers", "why_tests_cant": "unbounded index arithmetic", "anchors": ["CPP/auxiliary.cpp: ClebschGordan_array, SixJSymbol", "CPP/make_permutation_matrix.cpp"]}
{"id": "C54", "title": "Which ends of a run a batch script can see", "statement": "The exit status is non-zero exactly for an uncaught exception and the help exit; every run that stops with an error message of the program has status 0. (A user expects non-zero for every error.)", "quantifier": "all errors", "why_tests_cant": "all error paths (false of this code: raise_error exits with status 0)", "anchors": ["CPP/error_management.cpp: raise_error"]}
{"id": "C55", "title": "Potential components are re-ordered consistently for external models", "statement": "For the external (chiral, Nijmegen) potentials, the re-ordering of the six components is a permutation, and it maps the Fortran order (S0,S1,++,--,+-,-+) to the program's order for every value.", "quantifier": "all six-component arrays", "why_tests_cant": "all values", "anchors": ["CPP/Interactions/nijmegen.cpp: V", "CPP/Interactions/chiral_twobody.cpp: V", "CPP/Interactions/chiral_N2LOopt.cpp: V"]}
{"id": "C56", "title": "Reads while the basis is built", "statement": "For every accepted truncation the loop that determines the largest channel reads one element beyond the vector of channel boundaries; after the final push_back the same reads are in range. (A user expects no read outside.)", "quantifier": "all accepted truncations", "why_tests_cant": "undefined behaviour may go unnoticed in tests (false of this code in every run: the largest-channel loop reads entry N_chn before it is appended)", "anchors": ["CPP/make_pw_symm_states.cpp: construct_symmetric_pw_states"]}
{"id": "C57", "title": "The printed channel banner shows the opposite parity", "statement": "The JP label printed when a channel is constructed shows, in every channel of every truncation, the parity opposite to the PAR column of its states. (A user expects the same.)", "quantifier": "all channels", "why_tests_cant": "all channels (false of this code: the sign is inverted)", "anchors": ["CPP/make_pw_symm_states.cpp: construct_symmetric_pw_states"]}
{"id": "C58", "title": "Skipping cells with the overlap table loses nothing", "statement": "For every pair of momentum cells the overlap table marks as non-overlapping, the P123 element computed with any quadrature in phi between the cells' hyper-momentum limits is exactly zero, so the stored sparse matrix equals the full matrix.", "quantifier": "all momentum cells, all quadrature rules, all geometric functions", "why_tests_cant": "continuum of cells", "anchors": ["CPP/make_permutation_matrix.cpp: calculate_WP_overlap", "CPP/auxiliary.cpp: calculate_P123_element_in_WP_basis_mod"]}
{"id": "C59", "title": "Which overflows of the 6j table size are reported", "statement": "The size of the 6j table, (2*lmax+1)^6, is held correctly in its 32-bit integer exactly for lmax up to 17; an overflow is reported exactly when the size reduced modulo 2^32 is at least 2^31 - so for lmax 18 and 19, but not for lmax 20. (A user expects every overflow to stop the program.)", "quantifier": "all angular momenta", "why_tests_cant": "astronomically large tables (false of this code: at lmax=20 the wrapped size is positive)", "anchors": ["CPP/make_permutation_matrix.cpp: calculate_permutation_elements_for_3N_channel"]}
{"id": "C60", "title": "The optimised geometric function equals its defining formula", "statement": "For all states, momenta and angles, the geometric function computed from prestored tables equals the direct triple sum over coupling coefficients and spherical harmonics.", "quantifier": "all quantum numbers, momenta, angles and table fill schedules", "why_tests_cant": "unbounded sums over real arguments", "anchors": ["CPP/auxiliary.cpp: Gtilde_new, Gtilde_subarray_new, ClebschGordan_array"]}
{"id": "C61", "title": "Which file names work", "statement": "A file name is copied intact exactly when it has at most 299 characters; longer names overflow the buffer - in particular every P123 file in a folder whose name has 272 characters or more. (A user expects every length to work.)", "quantifier": "all folder names", "why_tests_cant": "unbounded string lengths (false of this code: the file name is strcpy'd into char[300])", "anchors": ["CPP/disk_io_routines.cpp: store_sparse_permutation_matrix_for_3N_channel_h5, read_sparse_permutation_matrix_for_3N_channel_h5", "CPP/make_permutation_matrix.cpp: fill_P123_arrays"]}
{"id": "C62", "title": "How the energy file can be chosen", "statement": "On the command line energy_input_file=NAME never selects a readable file: a NAME ending in .txt is not assigned, any other is assigned and then rejected. In a file of parameters the line energy_input_file=NAME.txt selects NAME.txt, which is then read if it exists. (A user expects the command line to work.)", "quantifier": "all command lines and file names", "why_tests_cant": "unbounded inputs (false of this code: values ending in .txt are parsed as a list of arguments)", "anchors": ["CPP/set_run_parameters.cpp: set_run_parameters", "CPP/disk_io_routines.cpp: read_input_energies"]}
{"id": "C63", "title": "What a missing or empty parameter file does", "statement": "Reading the parameter sets divides by zero exactly when the file is missing or empty; no message is given. (A user expects an error message.)", "quantifier": "all parameter files", "why_tests_cant": "all file contents (false of this code: integer division by zero)", "anchors": ["CPP/disk_io_routines.cpp: read_parameter_sample_list"]}
{"id": "C64", "title": "What a parallel job does with its channel index", "statement": "With parallel_run=true a job whose channel_idx is the index of a channel does exactly that channel's work; with any other index it does nothing and ends without an error. (A user expects an error.)", "quantifier": "all channel indices and settings", "why_tests_cant": "unbounded domain (false of this code: nothing is computed and nothing reported)", "anchors": ["CPP/main.cpp: main"]}
{"id": "C65", "title": "Thread buffers never overflow and lose nothing", "statement": "During the P123 calculation every element a thread produces is written inside its buffer, and at every moment the thread's files and buffer together hold exactly the elements it produced, in order.", "quantifier": "all traces of stores, thread counts, buffer sizes and prior disk contents", "why_tests_cant": "unbounded schedules and element counts (the real buffer holds 67 million elements)", "anchors": ["CPP/make_permutation_matrix.cpp: calculate_permutation_elements_for_3N_channel"]}
{"id": "C66", "title": "Which P123 files are accepted", "statement": "A P123 file is accepted exactly when it was written for the same basis and grid - whatever angular quadratures (Nx, Nphi) and production_run flag it was computed with. (A user expects a file computed with other quadratures to be rejected.)", "quantifier": "all settings, bases, grids and matrices", "why_tests_cant": "all pairs of settings (false of this code: the file does not record them)", "anchors": ["CPP/disk_io_routines.cpp: store_sparse_permutation_matrix_for_3N_channel_h5, read_sparse_permutation_matrix_for_3N_channel_h5", "CPP/make_permutation_matrix.cpp: fill_P123_arrays"]}
{"id": "C67", "title": "What failed writes of P123 data do", "statement": "For every set of failing writes: the writing run stops exactly when one of the four counts is among them; otherwise reading stops exactly when one of the three tables is among them; otherwise the matrix is accepted, with zeros in place of each array whose write failed. (A user expects some run to stop whenever a write failed.)", "quantifier": "all failing writes and all matrices", "why_tests_cant": "I/O failure points (false of this code: array writes are unchecked and read back as zeros)", "anchors": ["CPP/disk_io_routines.cpp: write_sparse_permutation_matrix_h5, read_sparse_permutation_matrix_h5"]}
{"id": "C68", "title": "Which Neumann terms are left after a walk", "statement": "After a parameter walk the file holds the Neumann terms of the last set; the terms of all sets are still there exactly when they are all equal to those of the last set. Runs with other grids, truncations or channels never touch the file. (A user expects the terms of every set.)", "quantifier": "all lists of parameter sets", "why_tests_cant": "unbounded histories (false of this code: the file name has no parameter-set index)", "anchors": ["CPP/solve_faddeev.cpp: pade_method_solve", "CPP/main.cpp: main"]}
{"id": "C69", "title": "The generated quadrature is Gauss-Legendre quadrature", "statement": "For every N the point generator, when its iteration stops, returns nodes within (N+1) tolerances of true roots of P_N; and for iterations that have reached their fixed points the stored N-point rule integrates every polynomial of degree below 2N exactly over (-1,1).", "quantifier": "all N up to 10^7 (stopping) resp. all N (exactness), all polynomials", "why_tests_cant": "infinitely many rules and integrands", "anchors": ["CPP/General_functions/gauss_legendre.cpp: gauss"]}
{"id": "C70", "title": "Lab energy and c.m. momentum are related relativistically", "statement": "The momentum computed for a lab energy T is the one for which proton and deuteron with opposite momenta have the same invariant mass as a proton of kinetic energy T hitting a deuteron at rest.", "quantifier": "all T>=0, all bound-state energies with positive deuteron mass", "why_tests_cant": "continuum of inputs", "anchors": ["CPP/General_functions/kinetic_conversion.cpp: lab_energy_to_com_momentum"]}
{"id": "C71", "title": "The radial part of every P123 contribution is exact", "statement": "For every pair of cells and every angular mesh point, the contribution to the permutation-matrix element contains the exact integral of k dk over all scale factors that put the bra momenta and the permuted ket momenta into their bins, and nothing else.", "quantifier": "all cells, all mesh points", "why_tests_cant": "continuum of inputs", "anchors": ["CPP/auxiliary.cpp: calculate_P123_element_in_WP_basis_mod"]}
{"id": "C72", "title": "Stored scattering wave packets diagonalise their own channel's Hamiltonian", "statement": "After the wave-packet construction finishes without an error, for every basis state the stored coefficient matrix of its two-nucleon channel holds orthonormal eigenvectors of (bin-averaged kinetic energy + that same channel's potential matrix); the eigenvector of the k-th smallest energy sits at column k (uncoupled) or at column k/2 of the first/second block for even/odd k (coupled), and the stored boundaries of that block enclose its energies.", "quantifier": "every truncation, isospin setting, number of bins, increasing grid, symmetric potential matrices, any diagonaliser obeying LAPACK's contract", "why_tests_cant": "a test sees one potential and one grid; overwritten segments or shifted columns of other channels only show for other sizes", "anchors": ["CPP/make_swp_states.cpp: make_swp_states, construct_full_hamiltonian, reorder_coupled_eigenspectrum, make_swp_bin_boundaries"]}
{"id": "C73", "title": "The resolvent array pairs every cell with its own channel's energies", "statement": "After a successful wave-packet construction the resolvent at (state, q-bin, p-bin) is the bound-continuum resolvent at the deuteron energy for the S-wave deuteron state's first bin, and otherwise the continuum-continuum resolvent of the energy bin that encloses the p-th energy of that state's own channel and block.", "quantifier": "every truncation, isospin setting, grid and potential with non-degenerate, non-zero channel energies and at least 3 bins", "why_tests_cant": "all channel structures; a wrong pointer offset only shows for some channels", "anchors": ["CPP/make_resolvent.cpp: calculate_resolvent_array_in_SWP_basis"]}
{"id": "C74", "title": "Which cells of positive energy are selected as breakup channels, and where the equations have their cut", "statement": "A cell of non-negative pair energies is selected on account of its own energies exactly when it contains E_com. The resolvent, which is taken at the total energy E_com + E_bound, has an imaginary part in a selected cell exactly when the cell's lowest energy is below the total energy; a cell with an imaginary part is left out exactly when its highest energy is below E_com. (A user expects the selected cells to be those that contain the total energy.)", "quantifier": "all grids, channels and energies above the breakup threshold", "why_tests_cant": "continuum of energies and grids (false of this code: cells are compared with E_com instead of the total energy)", "anchors": ["CPP/run_organizer.cpp: find_on_shell_bins (breakup branch)", "CPP/main.cpp: main (E = E_com + E_bound)"]}
{"id": "C75", "title": "The recorded elastic bin carries the elastic cut", "statement": "At the total energy of every computed on-shell energy, the resolvent of the deuteron bound bin has imaginary part -pi/width in exactly the q bin recorded for that energy and is real in every other q bin.", "quantifier": "all increasing grids with bins wider than 0.11 percent, all binding energies between -3 and 0 MeV, all requests", "why_tests_cant": "continuum of grids and energies; ties three routines with different reduced masses together", "anchors": ["CPP/run_organizer.cpp: find_on_shell_bins", "CPP/make_resolvent.cpp: resolvent_bound_continuum"]}
{"id": "C76", "title": "The determinant routine is correct for every matrix and pivoting", "statement": "For every square complex matrix and every pivot sequence the LU factorisation may choose, the determinant routine used by the Pade approximants returns the determinant.", "quantifier": "all dimensions, matrices and pivot sequences", "why_tests_cant": "a sign error only shows for some pivot patterns", "anchors": ["CPP/General_functions/matrix_routines.cpp: determinant", "CPP/solve_faddeev.cpp: pade_approximant"]}
{"id": "C77", "title": "Which approximant of an elastic element is reported", "statement": "Without breakup the iterative solver reports, for every elastic element, the diagonal approximant of its exact Neumann series into which the change is smallest, at the first order at which the best change lies more than 4 orders back, is below 1e-7, or is below 1e-6 of the value, or at order 14. In place of the approximant of order -1 stands zero - for the first element the memory cell before the array, at order 14 the last approximant of the element before unless that was accepted earlier. (A user expects that acceptance means two approximants agree: an element of modulus between 1e-15 and 1e-7 is accepted at order 0, and one wrong by half is exhibited.)", "quantifier": "all kernels, resolvents and element positions", "why_tests_cant": "all coefficient sequences (false of this code: at order 0 the cell of the previous element is taken for the previous approximant)", "anchors": ["CPP/solve_faddeev.cpp: pade_method_solve (convergence test)"]}
{"id": "C78", "title": "Which breakup amplitudes are reported", "statement": "With the iterative solver a breakup element that the acceptance rule accepts at one of the orders done is reported as the approximant of its smallest change, an element that is not accepted as whatever memory holds; all 15 orders are done unless the number of accepted elements of both kinds equals the number of elastic ones. With the direct solver all reported breakup amplitudes are zero. (A user expects elements of a solution with either solver.)", "quantifier": "all kernels, all runs with breakup channels", "why_tests_cant": "all inputs (false of this code: the direct solver never writes the breakup array, so zeros are reported)", "anchors": ["CPP/solve_faddeev.cpp: solve_faddeev_equations, faddeev_dense_solver", "CPP/main.cpp: main"]}
{"id": "C79", "title": "The Malfliet-Tjon force acts only in S waves", "statement": "For all positive momenta the Malfliet-Tjon model returns the S-wave projection of its repulsive and attractive Yukawa forces (singlet strength for J=0, triplet for J=1), it is Hermitian, and the element extracted for any physical pair of partial waves vanishes unless both have L=0.", "quantifier": "all momenta, all pairs of partial waves", "why_tests_cant": "continuum of inputs", "anchors": ["CPP/Interactions/malfliet_tjon.cpp: V", "CPP/make_potential_matrix.cpp: extract_potential_element_from_array"]}
{"id": "C80", "title": "Reported amplitudes are those of the discretised Faddeev problem of the user's input", "statement": "Whenever the calculation of a channel finishes, the number reported for an energy and a pair of deuteron states is the on-shell element, between the deuteron wave packets at the bin of the on-shell momentum, of the solution of U = A + A G U (direct solver, when the solution is unique) or of a diagonal Pade approximant of its Neumann series (iterative solver), where A = C^T (P123+P132) V C with V the wave-packet matrix elements of the selected interaction, C an orthonormal set of eigenvectors of the pair Hamiltonian, and G the bin-averaged resolvent at the energy of the printed lab energy; with a realistic two-nucleon spectrum and a grid with bins wider than 0.11 percent the calculation does finish.", "quantifier": "every Hermitian interaction with nondegenerate spectra, every truncation, grid, requested energies and permutation matrix; every LAPACK eigenvector choice, thread order and content of fresh memory", "why_tests_cant": "composes all stages; a wrong connection of two correct stages shows only for some inputs", "anchors": ["CPP/main.cpp: main (channel loop)", "CPP/make_potential_matrix.cpp", "CPP/make_swp_states.cpp", "CPP/run_organizer.cpp", "CPP/make_resolvent.cpp", "CPP/solve_faddeev.cpp"]}
{"id": "C81", "title": "The breakup file is a faithful listing", "statement": "In the table written for the breakup amplitudes, every amplitude (energy, deuteron state, recorded cell) has its own place, in a row of its own energy and in the columns headed with its own partial waves, next to the boundaries of its own q and p bins; every row starts with the data of its energy; all other places are zero; no row or column is superfluous. The table can always be made.", "quantifier": "every truncation, channel, increasing q grid, energies, requests and amplitudes", "why_tests_cant": "the layout depends on which cells are recorded for which energy; a collision or a lost row appears only for some histories", "anchors": ["CPP/disk_io_routines.cpp: restructure_breakup_data, store_U_BU_matrix_elements_txt", "CPP/run_organizer.cpp: find_on_shell_bins"]}
{"id": "C82", "title": "When two columns of the breakup file have the same heading", "statement": "Two different amplitude columns of a breakup file have the same heading exactly when amplitudes are recorded for two partial waves that differ in the total isospin only; never without isospin breaking. (A user expects all headings to differ; a run with equal ones is exhibited.)", "quantifier": "every truncation, isospin setting, channel, grid and energies", "why_tests_cant": "all state spaces (false of this code with isospin breaking: the total isospin is not printed)", "anchors": ["CPP/disk_io_routines.cpp: restructure_breakup_data (label)"]}
{"id": "C83", "title": "When a p bin of negative pair energies is recorded as a breakup cell", "statement": "Above the breakup threshold a p bin whose lower boundary is a negative energy is recorded for a partial wave exactly when the next bin has no negative energies and, with some q bin, contains the energy in its lower half. (A user expects only bins of non-negative energies, whose boundaries are momenta.)", "quantifier": "all grids, channels and energies", "why_tests_cant": "continuum of energies (false of this code: the neighbour below the first scattering bin is the deuteron's bound-state bin)", "anchors": ["CPP/run_organizer.cpp: find_on_shell_bins (neighbours)", "CPP/disk_io_routines.cpp: restructure_breakup_data"]}
{"id": "C84", "title": "When a breakup cell is recorded twice", "statement": "Above the breakup threshold and for ordered grids, no cell (partial wave, q bin, p bin) is recorded twice for one energy exactly when no partial wave has two cells that contain the energy. (A user expects no repetition at all.)", "quantifier": "all grids, channels and energies", "why_tests_cant": "continuum of energies (false of this code: neighbours of adjacent on-shell cells are appended without checking)", "anchors": ["CPP/run_organizer.cpp: find_on_shell_bins (neighbours)"]}
{"id": "C85", "title": "Permutation matrix is P123 between wave packets", "statement": "The permutation matrix computed for a three-nucleon channel holds, in strictly increasing row-major order and without zeros, the elements of P123 = spin-isospin-orbital recoupling times the quadrature over x and phi of the geometric function times the exact hypermomentum integral over the overlap of the two cells, divided by the norms of the wave packets - for every schedule, number of threads, content of memory and of the disk; and the calculation always ends.", "quantifier": "all channels, grids, quadratures, thread counts and schedules", "why_tests_cant": "infinitely many grids and schedules; the tables, the overlap shortcut and the parallel stores all have to be right at every index", "anchors": ["CPP/make_permutation_matrix.cpp: fill_P123_arrays, calculate_WP_overlap, calculate_Gtilde_subarray_polar, calculate_permutation_elements_for_3N_channel", "CPP/auxiliary.cpp: Atilde, Gtilde_subarray_new, ClebschGordan, calc_gauss_points"]}
{"id": "C86", "title": "Permutation conserves total isospin", "statement": "No stored element of the permutation matrix connects states of different total isospin, also when the interaction breaks isospin.", "quantifier": "all channels, grids, quadratures and schedules", "why_tests_cant": "all elements of all matrices", "anchors": ["CPP/make_permutation_matrix.cpp: Atilde_store", "CPP/auxiliary.cpp: Atilde"]}
{"id": "C87", "title": "Amplitudes from the user's input, permutation matrix included", "statement": "Whether a run computes its permutation matrix or reads it from a file computed by any other run, if it does not stop it uses the matrix of P123 in its own basis and grid (with the quadrature of the run that computed it), and the reported amplitudes are those of the Faddeev equation with that P123, the user's interaction and the resolvent.", "quantifier": "all inputs, channels, energies, earlier runs, schedules and memory contents", "why_tests_cant": "end-to-end statement over all inputs and histories", "anchors": ["CPP/main.cpp: main", "CPP/make_permutation_matrix.cpp: fill_P123_arrays", "CPP/disk_io_routines.cpp: read_sparse_permutation_matrix_for_3N_channel_h5", "CPP/solve_faddeev.cpp"]}
{"id": "C88", "title": "Phi mesh of the permutation matrix lies in its interval and is Gauss-Legendre", "statement": "For every number of points N and interval, whenever the phi mesh is delivered it has N points strictly inside the interval; a node whose Newton iteration passed its test is within (N+1)*1e-9 (of half the interval) of the image of a true root of P_N and has a positive weight (N up to 3000); otherwise all 100 iterations were used without passing (which is not reported). With the N different roots as points the rule integrates every polynomial of degree below 2N exactly over the interval.", "quantifier": "all N, all intervals, all polynomials", "why_tests_cant": "continuum of intervals, infinitely many meshes and integrands", "anchors": ["CPP/auxiliary.cpp: roots, calc_gauss_points, dLegendre", "CPP/make_permutation_matrix.cpp: calculate_WP_overlap"]}
{"id": "C89", "title": "Which results are reproducible on another machine", "statement": "Two runs on the same input and permutation operator, on machines that differ in the signs LAPACK gives eigenvectors, in the contents of fresh memory and in the order of threads, give the same deuteron energy and the same list of energies; the direct solver gives the same elastic amplitudes whenever the equation has one solution; the iterative solver without breakup gives the same elastic amplitudes whenever the memory cell before the array of approximants has the same content; otherwise not: the first element can be 3/2 with one content and 1 with another. (A user expects the same amplitudes always.)", "quantifier": "all inputs, interactions, channels, energies, LAPACK implementations, memory contents and schedules", "why_tests_cant": "relates all pairs of runs; undefined reads show up only with particular memory contents", "anchors": ["CPP/main.cpp: main", "CPP/make_swp_states.cpp: make_swp_states", "CPP/solve_faddeev.cpp: pade_method_solve, direct_dense_solve"]}
{"id": "C90", "title": "Output tables determine the computed numbers to the last bit", "statement": "Every row of the elastic and of the breakup table, split at blanks, gives back its entries in order; the decimal text of a number identifies the double it was computed as (every other double is farther away). Two rows with the same text hold the same energies, bin and amplitudes bit for bit. (Finite numbers that are not minus zero, energies not negative, bin numbers below 10^9.)", "quantifier": "all rows, all doubles, all choices the library makes between two nearest decimals", "why_tests_cant": "2^64 doubles per entry; columns could run into each other for some lengths only", "anchors": ["CPP/disk_io_routines.cpp: to_string_with_precision_and_sign, store_U_matrix_elements_txt, store_U_BU_matrix_elements_csv"]}
{"id": "C91", "title": "When a finite amplitude is written as a complex number", "statement": "The text of a finite complex amplitude in the output tables is a complex number a+bj or a-bj that a reader (Python complex) accepts exactly when neither part is minus zero; for minus zero '+-0.0...' is written. (A user expects it for all finite amplitudes.)", "quantifier": "all finite complex doubles", "why_tests_cant": "the exception is one value in 2^64", "anchors": ["CPP/disk_io_routines.cpp: to_string_with_precision_and_sign, store_U_matrix_elements_txt"]}
{"id": "C92", "title": "What the file of q boundaries says about the grid", "statement": "Every line of q_boundaries_Nq_N.csv is a number within 5e-9 MeV of its boundary, so grids with the same file agree within 1e-8 MeV; different grids with the same file exist. (A user expects the file to determine the grid.)", "quantifier": "all grids", "why_tests_cant": "continuum of grids", "anchors": ["CPP/disk_io_routines.cpp: store_q_WP_boundaries_csv", "CPP/make_wp_states.cpp: make_fwp_statespace"]}
{"id": "C93", "title": "Chiral potentials are the partial waves of the chiral force", "statement": "For IS_LO, IS_NLO, IS_N2LO, IS_N3LO, N2LOopt and Idaho_N3LO, every line of parameters and any two-pion loop functions, each element <L',p'|V|L,p> (with the program's sign for mixing elements) is the partial-wave projection of the model's force: one-pion exchange (neutral and charged pions), two-pion exchange with central, spin-spin, spin-orbit, tensor and sigma-L parts, each with its regulator and the minimal-relativity factor, plus the contact terms of that wave; for J up to 38 (the length of the Legendre table) and momenta up to twice the cutoff, zero above. The stored matrices are its wave-packet averages (tensor force on; midpoint rule not combined with isospin breaking, see C32).", "quantifier": "all parameter lines, partial waves, charges and momenta", "why_tests_cant": "continuum of momenta and parameters; all waves", "anchors": ["CPP/Interactions/chp/chiral-twobody-potentials.f90: chp, pwd_c, pwd_s, pwd_LS, pwd_sigL, pwd_T, pwd_integral", "CPP/Interactions/chp/chp-set.f90", "CPP/Interactions/chiral_twobody.cpp: V", "CPP/Interactions/chiral_N2LOopt.cpp", "CPP/Interactions/chiral_Idaho_N3LO.cpp"]}
{"id": "C94", "title": "Chiral potentials are Hermitian", "statement": "For every chiral model and every line of parameters, exchanging ingoing and outgoing momenta and orbital momenta does not change an element, and with the tensor force on the stored potential matrices are symmetric in every mode.", "quantifier": "all parameter lines, waves and momenta", "why_tests_cant": "continuum of momenta and parameters", "anchors": ["CPP/Interactions/chp/chiral-twobody-potentials.f90: chp", "CPP/make_potential_matrix.cpp"]}
{"id": "C95", "title": "Each column of a parameter line is one constant, with its effect and nothing else", "statement": "For the six chiral models and J up to 38: changing a column that holds a contact constant changes the elements of exactly the partial waves (and charges) that constant belongs to - every two values give different elements there (positive momenta up to twice the cutoff) - and changes nothing elsewhere. The columns of the three-nucleon constants, which every line of IS_NLO and IS_N2LO must have, change nothing at all.", "quantifier": "all models, lines, columns, values, waves, charges and momenta", "why_tests_cant": "continuum of values; a swapped pair of columns shows only for particular waves", "anchors": ["CPP/Interactions/chp/chp-set.f90", "CPP/Interactions/chp/chiral-twobody-potentials.f90: chp, contact terms", "CPP/Interactions/chiral_twobody.cpp: update_parameters"]}
{"id": "C96", "title": "Which constants a parameter walk uses", "statement": "With parameter_walk and a chiral model, every solve for parameter set i, in every channel, uses the force with the numbers of line i of the file - whatever the range, the sets done before and the initial memory - when the lines have the model's number of columns. Files with more columns are accepted and cut; files with fewer columns are accepted, constant k of set i is then entry k mod n of line i + k/n, and a walk to the end of the file passes the range check and reads beyond it. (A user expects lines that do not fit the model to be rejected.)", "quantifier": "all files, ranges, channels and models", "why_tests_cant": "history of updates; the wrong case passes the check made by the program", "anchors": ["CPP/main.cpp: main", "CPP/disk_io_routines.cpp: read_parameter_sample_list", "CPP/Interactions/chiral_twobody.cpp: update_parameters"]}
{"id": "C97", "title": "Models on which a parameter walk has no effect", "statement": "For LO_internal, malfliet_tjon and nijmegen a parameter walk accepts any parameter file and every set is solved with the same potential as a run without walk. (A user expects an effect or an error.)", "quantifier": "all files and ranges, all models without parameters", "why_tests_cant": "needs all files", "anchors": ["CPP/Interactions/chiral_LO_internal.cpp: update_parameters", "CPP/Interactions/malfliet_tjon.cpp: update_parameters", "CPP/Interactions/nijmegen.cpp: update_parameters", "CPP/main.cpp: main"]}
{"id": "C98", "title": "Constants used without a parameter walk", "statement": "A run without parameter_walk uses, in every channel, the built-in constants for N2LOopt and Idaho_N3LO, whatever the memory holds; for IS_LO, IS_NLO, IS_N2LO, IS_N3LO the constants are read from an array that was never written: whatever it holds, another content changes the neutron-proton 1S0 force at every pair of momenta. (A user expects published constants for every model.)", "quantifier": "all inputs, all contents of memory", "why_tests_cant": "contents of uninitialised memory cannot be chosen by a test", "anchors": ["CPP/Interactions/potential_model.cpp: fetch_potential_ptr", "CPP/Interactions/chiral_twobody.cpp: call_preset, update_parameters", "CPP/Interactions/chiral_N2LOopt.cpp", "CPP/Interactions/chiral_Idaho_N3LO.cpp"]}
{"id": "C99", "title": "Two-pion exchange is the published expression of its order", "statement": "For every chiral model, parameter line, nucleon pair and pair of momenta, every amplitude of two-pion exchange is the published expression of that order (Machleidt and Entem; Entem et al.; Epelbaum et al.), with the loop functions given by the two-pion spectrum up to the spectral cutoff; the two-loop terms of IS_N3LO (except the isoscalar central one, see C101) are the dispersion integrals over the published spectral functions, summed with the program's rule. Each potential element is the projection of that force.", "quantifier": "all models, parameter lines, pairs, waves, momenta and angles", "why_tests_cant": "continuum of momenta and constants; a wrong coefficient is a small change of a number", "anchors": ["CPP/Interactions/chp/chiral-twobody-potentials.f90: chp_two_pion_exchange_1loop_*, chp_N3LO_2PE_*"]}
{"id": "C100", "title": "The loop functions are integrals over the two-pion spectrum", "statement": "The functions A and L the program computes are half the integral of 1/(mu^2+q^2), and (4m^2+q^2) times the integral of 1/((mu^2+q^2) sqrt(mu^2-4m^2)), over the masses from 2m to the spectral cutoff (all masses without one); with a cutoff they are positive, smaller than without, and tend to the latter as the cutoff grows.", "quantifier": "all pion masses, cutoffs and momentum transfers", "why_tests_cant": "integrals and limits", "anchors": ["CPP/Interactions/chp/chiral-twobody-potentials.f90: chp_NLO_dr_two_pion_exchange_loop_L, chp_NLO_sfr_two_pion_exchange_loop_L, chp_NNLO_dr_two_pion_exchange_loop_A, chp_NNLO_sfr_two_pion_exchange_loop_A"]}
{"id": "C101", "title": "The two-loop central force of IS_N3LO is its dispersion integral up to the error of two sums", "statement": "The value used for the isoscalar central two-loop amplitude equals the dispersion integral over the published spectral density up to the cutoff, plus q^6 times a constant times the error of the quadrature from 2m/cutoff to 0.95 and of the expansion from 0.95 to 1, both for the logarithmic part only.", "quantifier": "all constants, momentum transfers, cutoffs and quadrature rules", "why_tests_cant": "integral identity", "anchors": ["CPP/Interactions/chp/chiral-twobody-potentials.f90: chp_N3LO_2PE_Vc_2loop_SFR"]}
{"id": "C102", "title": "The expansion near threshold has the documented accuracy", "statement": "The expansion used for z from 0.95 to 1 has a relative error of at most 2.6e-10 for the momenta of a run, as documented. (The comment says for all values: false above q^2 = 796 m^2; there it is between 2.7e-10 and 3.4e-10.)", "quantifier": "all momentum transfers and pion masses", "why_tests_cant": "error bound on a continuum", "anchors": ["CPP/Interactions/chp/chiral-twobody-potentials.f90: chp_N3LO_2PE_Vc_2loop_SFR"]}
{"id": "C103", "title": "The bracket of the two-loop integrals is accurate for all arguments", "statement": "The function used for the bracket in the two-loop integrals is exact for arguments from 0.05 on; below, where it is replaced by a polynomial, the error is less than 5.5e-13.", "quantifier": "all positive arguments", "why_tests_cant": "error bound on a continuum", "anchors": ["CPP/Interactions/chp/chiral-twobody-potentials.f90: chp_N3LO_2PE_2loop_int_helper"]}
{"id": "C104", "title": "The loop functions are defined at every mesh point", "statement": "For momenta not both zero and angles inside the mesh, no loop function divides by zero or takes the logarithm or root of a non-positive number.", "quantifier": "all momenta, angles, pion masses and cutoffs above threshold", "why_tests_cant": "continuum of inputs", "anchors": ["CPP/Interactions/chp/chiral-twobody-potentials.f90: chp_NLO_sfr_two_pion_exchange_loop_L, chp_NNLO_sfr_two_pion_exchange_loop_A, chp_N3LO_2PE_*"]}
{"id": "C105", "title": "Spin-spin and tensor amplitudes of two-pion exchange belong together", "statement": "In every class and in the sum, the spin-spin amplitudes are -q^2 times the tensor amplitudes.", "quantifier": "all classes, settings, momentum transfers", "why_tests_cant": "all inputs", "anchors": ["CPP/Interactions/chp/chiral-twobody-potentials.f90: chp_two_pion_exchange_1loop_*_Vs, chp_N3LO_2PE_Vs_*, chp_N3LO_2PE_Ws_*, chp_N3LO_2PE_VT_*, chp_N3LO_2PE_WT_*"]}
{"id": "C106", "title": "The versions of the relativistic corrections differ by contact terms only", "statement": "The two versions of the 1/M corrections give amplitudes that differ by polynomials in q^2, the stated ones; the third version equals the second.", "quantifier": "all constants, masses, cutoffs and momentum transfers", "why_tests_cant": "all inputs", "anchors": ["CPP/Interactions/chp/chiral-twobody-potentials.f90: chp_two_pion_exchange_1loop_r_*"]}
{"id": "C107", "title": "Tables kept between calls never show", "statement": "In every history of presets and evaluations each value returned is that of the preset in force, as if no table had been kept from an earlier call.", "quantifier": "all histories of presets and evaluations", "why_tests_cant": "histories", "anchors": ["CPP/Interactions/chp/chiral-twobody-potentials.f90: chp_setup_2PE_2loop_int_data, chp_calculate_2PE_2loop_int_*_data"]}
{"id": "C108", "title": "The Nijmegen potential in partial waves is the projection of the Nijmegen I force", "statement": "For partial waves up to J = 9, the elements the program obtains from the Nijmegen routines, with the sign it applies to mixing elements, are the partial-wave projections of the Nijmegen I one-boson-exchange force with the parameter set of that wave and charge state; above J = 9, and for momenta further apart than 30 hbar c per fm, they are zero. The stored matrices are the wave-packet averages of these elements.", "quantifier": "all positive momenta, all partial waves and charge states, all orders of calls", "why_tests_cant": "continuum of momenta; the check is an identity between routines and an integral", "anchors": ["CPP/Interactions/nijmegen/pnijm.f: nijm, PNIJMLSJ, VMOM, PHSRDL, NYMCOP, PSVECT, VECTOR, SCALAR, DIFRAC", "CPP/Interactions/nijmegen/nijmegen_interface.f90: nijmegen", "CPP/Interactions/nijmegen.cpp: nijmegen::V"]}
{"id": "C109", "title": "The Nijmegen potential is symmetric", "statement": "Exchanging the two momenta transposes the six components the Nijmegen model returns, and the stored matrices are symmetric, whatever values the quadrature routines return for given arguments.", "quantifier": "all momenta, waves, charge states and all quadrature routines that are functions of their arguments", "why_tests_cant": "continuum of inputs", "anchors": ["CPP/Interactions/nijmegen/pnijm.f: nijm, PNIJMLSJ, VMOM, PSVECT, VECTOR, SCALAR, DIFRAC", "CPP/Interactions/nijmegen.cpp: nijmegen::V"]}
{"id": "C110", "title": "The exponential integral of the Nijmegen potential is accurate", "statement": "For every positive argument CE1 ends after at most 15 rounds of its loops and returns e^x E1(x) within 1e-12, within 4.7e-13 from 1 on, within 6.2e-14 from 3 on, within 8.5e-15 from 14 on, and with relative error at most 2e-13 from 165 on.", "quantifier": "all positive arguments", "why_tests_cant": "continuum of arguments, and the exact value is an improper integral", "anchors": ["CPP/Interactions/nijmegen/pnijm.f: CE1, FDEXP"]}
{"id": "C111", "title": "The angular integrals of the Nijmegen potential are right whatever calls came before", "statement": "After every history of calls with arguments in range (x at least 1, above 1 if the propagator is wanted; y above 1e-3; y(x+1) below 100; a^2 at most 60; at most 9 waves; the wave number growing by at most one while y stays the same), SEXN stays inside its table of 30 moments, ends, and returns for every wave n asked for half e^(a^2) times the integral of P_n(z) e^(-y(x-z)), within 1.3e-7 3^n e^(a^2-y(x-1)), and, if asked for, the same with 1/(x-z), within 6.7e-6 3^n (x above 5) or 3.3e-8 15^n (x up to 5) times e^(a^2-y(x-1)); other entries of the caller's arrays are left alone. Outside that range both can fail: with wave numbers 9 to 13 and x above 5 a call that fills the table writes beyond it, and a call in the negligible region between two equal calls makes the second one return zeros for a positive integral.", "quantifier": "all histories of calls, all arguments in the range, all initial contents of the table", "why_tests_cant": "the table and its keys survive between calls, so the result depends on the whole history; the exact values are integrals", "anchors": ["CPP/Interactions/nijmegen/pnijm.f: SEXN, PLCFS, GRENS, CE1"]}
{"id": "C112", "title": "The angular integrals of the Nijmegen potential at low momenta", "statement": "For y up to 1e-3 (y x below 100, at most 12 waves, x at least 2 if a mass is given and at least 1 otherwise) SEX ends and returns the integrals with the propagator, half e^(a^2) times the integral of P_n(z) e^(-y(x-z))/(x-z), within (1.35e-7 + y^2) e^(a^2-yx)/(x-1), those without it within y^20 e^(a^2-yx) for waves 0 and 1 and within (3y)^n e^(a^2-yx) for higher waves, and zero in place of the former for a = 0; it leaves the tables of the other branch alone, so that a call with larger y returns the integrals of C111 after every history that mixes both. The bound for wave 2 cannot be improved in kind: without the propagator the value returned is always at least 1.49 times the integral (the coefficients of the polynomial are cut to integers), and with it the value is too small, by a factor of 0.81 or less once yx is 1 or more (heavy mesons).", "quantifier": "all arguments in the range, all waves, all histories", "why_tests_cant": "the exact values are integrals over a continuum of arguments; the branch taken depends on the momenta", "anchors": ["CPP/Interactions/nijmegen/pnijm.f: SEX, SMLLEX, QJ99, HYPRG99, PLCFS"]}
{"id": "C113", "title": "The Nijmegen potential evaluated again and again", "statement": "The routine behind the Nijmegen potential keeps tables from one meson to the next and from one evaluation to the next. For waves with J up to 4 and positive momenta of at most 3300 MeV together, after every history of such evaluations since the start of the program, for every wave, type and pair of momenta, an evaluation never leaves these tables, and it adds up the exchanges of all mesons with angular integrals that are within the bounds of C111 and C112 in every entry the potential uses (all waves with the propagator, all but the highest without it, which does not enter), provided it does not find tables left by an earlier wave with smaller J for exactly the same argument y; loops over momenta at fixed J and a restart at lower momenta are always of this kind. For larger J the tables are too small: from J = 5 to 9 every evaluation at momenta of which one is at least ten times the other (product above 500 MeV^2) writes beyond them, in whatever state it finds them, and from J = 7 to 9 every evaluation with a product of momenta between 500 and 114000 MeV^2 does unless the previous one left the same y.", "quantifier": "all histories of evaluations, waves, charge types, momenta, contents of local arrays", "why_tests_cant": "what an evaluation returns depends on everything evaluated before", "anchors": ["CPP/Interactions/nijmegen/pnijm.f: VMOM, PSVECT, VECTOR, SCALAR, DIFRAC, SEX, SEXN, SMLLEX"]}
{"id": "C114", "title": "What the Nijmegen routines keep between calls has no effect", "statement": "The Nijmegen routines keep the name of the wave and what they read off it, the charge type, masses, parameters and couplings from call to call and bring them up to date only when the wave or the type changes. After every history of calls since the start of the program (all waves, charges, momenta, calls that return early included, whatever uninitialised storage holds), a call with Tz of -1, 0 or 1 returns exactly what it returns when everything is computed afresh, so a sequence of calls gives the results of the single calls in any order. A Tz outside -1, 0, 1 is not refused: the call returns the potential for the charge type of the last call that had a valid one.", "quantifier": "all histories of calls, all next calls, all initial contents of memory", "why_tests_cant": "the result could depend on any earlier sequence of waves and charges", "anchors": ["CPP/Interactions/nijmegen/pnijm.f: nijm, PNIJMLSJ, VMOM, AMFACS, NYMPAR, PHSRDL, NYMCOP", "CPP/Interactions/nijmegen/nijmegen_interface.f90: vnijm", "CPP/Interactions/nijmegen.cpp: nijmegen::V"]}
{"id": "C115", "title": "A whole run leaves, for every channel and parameter set, files with the right elastic and breakup amplitudes, and splitting the work over jobs changes nothing", "statement": "From the parameter file to the files of amplitudes: when a run with a chiral model and a parameter walk has come to its end, then for every three-nucleon channel and every parameter set of its work the file named after channel and set holds a table whose rows are in increasing order of the lab energy and bracket every requested energy within range, each row with the lab energy, c.m. energy and q bin of an on-shell point and the amplitudes (direct solver: of the unique solution; iterative solver: Pade approximants of the Neumann series) of the discretised Faddeev problem of that channel, with the permutation operator computed by the run or read from a file, and with the force whose constants are the numbers in that line of the parameter file. If breakup is requested, the second file named after channel and set holds, for every energy of the first file above the breakup threshold, every deuteron state and every continuum cell of pair and spectator bins that contains E_com, a row beginning with the energies and a column headed by the two partial waves with the amplitude from the deuteron to the wave packet of the cell (iterative solver: a Pade approximant of its own Neumann series; direct solver: always zero), followed by the boundaries of the cell in momentum. No other file of amplitudes is changed. The same holds without a walk for the potential object selected by name. Two such runs - everything in one run, or a job for one channel and some of the sets - on machines that differ in LAPACK's eigenvectors, fresh memory and thread order, one computing the permutation matrix and the other reading it, leave equal tables of elastic amplitudes for every channel and set that both do.", "quantifier": "all inputs, parameter files, channels, parameter sets, LAPACK results, memory contents, thread orders, previous files", "why_tests_cant": "composition of the whole program over all inputs and schedules", "anchors": ["CPP/main.cpp: main", "CPP/disk_io_routines.cpp: store_U_matrix_elements_txt", "CPP/run_organizer.cpp: find_on_shell_bins", "CPP/solve_faddeev.cpp: solve_faddeev_equations", "CPP/Interactions/potential_model.cpp: fetch_potential_ptr"]}
{"id": "C116", "title": "Breakup amplitudes of a whole channel calculation belong to their own deuteron state, energy and cell; the direct solver's are all zero; the calculation completes", "statement": "With the iterative solver and breakup switched on, when the calculation of a channel is below the breakup threshold or has not stopped early by counting accepted elements (C47), the elastic amplitudes are as in C80 and the breakup table has, for every energy, every deuteron state and every recorded cell inside the grids, in the rows of that energy and the column of the cell, a diagonal Pade approximant of the Neumann series of the Faddeev problem at that energy between the deuteron wave packet in the on-shell bin and the wave packet of the cell. With the direct solver every number in the breakup table is zero. If the two-nucleon spectra pass the check for bound states, the deuteron energy is realistic and neighbouring q boundaries differ by at least 0.11 percent, a calculation with breakup completes, and above the threshold every partial wave has a recorded cell in the q bin of the on-shell momentum.", "quantifier": "all inputs, interactions, channels, energies, cells, LAPACK results, memory contents, thread orders", "why_tests_cant": "composition over all inputs of set-up, cell search, solver and table", "anchors": ["CPP/main.cpp: main", "CPP/solve_faddeev.cpp: solve_faddeev_equations, pade_method_solve", "CPP/run_organizer.cpp: find_on_shell_bins (breakup branch)", "CPP/disk_io_routines.cpp: restructure_breakup_data, store_U_BU_matrix_elements_txt"]}
{"id": "C117", "title": "Which recorded breakup cells conserve energy", "statement": "A user expects breakup amplitudes on the energy shell, for cells of pair and spectator energies that contain the total energy E_com + E_bound, at which the equations are solved. The search uses E_com instead. For every continuum cell above the breakup threshold: the cell is open (the resolvent of the calculation has an imaginary part) exactly when the total energy lies inside it; it is recorded if it contains E_com; so a cell that contains E_com is open exactly when it extends from below E_com + E_bound to E_com. If no cell is wider than half the binding energy, every recorded cell of the grid, neighbours included, lies above the total energy and is closed, and no cell that contains the total energy is recorded.", "quantifier": "all interactions, grids, energies, partial waves and cells", "why_tests_cant": "relation between two searches over all grids and energies; unit tests would need the spectrum of every interaction", "anchors": ["CPP/run_organizer.cpp: find_on_shell_bins (breakup branch)", "CPP/main.cpp: main", "CPP/make_resolvent.cpp: calculate_resolvent_array_in_SWP_basis, resolvent_continuum_continuum"]}
{"id": "C118", "title": "Sizes a 32-bit calculation can treat", "statement": "For a calculation whose sizes satisfy fifteen inequalities (pairs of momentum cells below 2^31, four times states x p bins x q bins below 2^31, matrices, meshes and tables accordingly) none of the size and index computations that the program does in int overflows: every one has its exact value. For any other sizes one of them overflows. In particular the overlap table of the permutation-matrix calculation is allocated with the right length exactly if (Nq*Np)^2 < 2^31 - on square grids up to 215 x 215 bins; beyond that the allocation throws (216 to 255 bins) or, as with 256 bins, gives a table that is too short and is written beyond its end, without any message. (A user expects an error message, or a correct calculation, for every grid.)", "quantifier": "all grid sizes, numbers of states, channels, mesh points and breakup cells, all values of the loop variables", "why_tests_cant": "overflow appears only on grids too large to test; the bound must hold for every loop variable of every expression", "anchors": ["CPP/make_permutation_matrix.cpp: fill_P123_arrays, calculate_WP_overlap", "CPP/main.cpp: main", "CPP/make_swp_states.cpp: make_swp_states, construct_full_hamiltonian", "CPP/make_potential_matrix.cpp: calculate_potential_matrices_array_in_WP_basis", "CPP/run_organizer.cpp: find_on_shell_bins", "CPP/make_resolvent.cpp: calculate_resolvent_array_in_SWP_basis", "CPP/disk_io_routines.cpp: restructure_breakup_data", "CPP/make_wp_states.cpp: make_fwp_statespace"]}
{"id": "C119", "title": "The record of a calculation", "statement": "After every start that is accepted, the file run_parameters.txt of the output folder tells, each under its label, the values of all run parameters the calculation uses, except the two folder names and (if all channels are treated) the channel index: integers, flags and strings exactly, the two constants of the Chebyshev grid to three decimals; no other text file has changed, and a refused start changes none. Two calculations with the same record have the same recorded parameters (grid constants within 0.001). A calculation can be repeated from its record: the input file with one line key=value per recorded parameter is accepted and gives the same parameters, if strings contain no white space and grid constants have at most three decimals. Not true, and shown: grid scales 100 and 100 + 2^-14 leave the same record; and the record itself, given as the input file, is accepted without effect - the default calculation runs.", "quantifier": "all command lines, input files, numbers of threads, parameter values, earlier contents of the folder", "why_tests_cant": "the record must tell every combination of values of 35 parameters of four types; lossiness only shows for values nobody tests", "anchors": ["CPP/set_run_parameters.cpp: create_input_printout_string, type_to_string, set_run_parameters", "CPP/disk_io_routines.cpp: store_run_parameters, open_file"]}
{"id": "C120", "title": "The kinematics table", "statement": "The file q_kinematics_Nq_N.txt, written in every run, contains N+1 boundary rows and N mid-point rows in this order, each with its index and momentum, c.m. energy and lab energy to nine digits; the values of a mid-point row are the on-shell momentum, c.m. energy and lab energy the calculation uses for that bin (bins wider than 0.11 %), and the lab energy read from an inner mid-point row, requested in the energy file, makes the program compute at that row and at most its two neighbours. Mid-point rows lie between their boundary rows in all three columns (bins wider than 0.11 %). Not true, and shown: the statement in the file that the energies of the second table are the mid-points of those of the first (they differ by a relative 0.4-0.9e-4 at the deuteron, since two masses are used; equality holds for one binding energy near -2.6 MeV only); the order for bins narrower than 0.003 %; and the first and last row, whose energy is dropped silently when rounded outwards.", "quantifier": "all grids, binding energies, requested energies, values of the doubles written", "why_tests_cant": "the table is written for users to pick energies from; agreement with the search must hold for every grid", "anchors": ["CPP/make_swp_states.cpp: store_swp_kinematics, make_swp_states", "CPP/disk_io_routines.cpp: store_q_WP_kinematics_txt", "CPP/run_organizer.cpp: find_on_shell_bins"]}
{"id": "C121", "title": "The Gauss-Legendre routine terminates with the right rule for every number of points", "statement": "For every number of points N (1 to ten million) the quadrature routine used for all momentum meshes comes to an end: no root needs more than seven Newton passes. Whatever the output arrays held before, they then contain the N-point Gauss-Legendre rule: N strictly increasing nodes inside (-1,1), each within 3e-31 (N+1/2)^2 of the true node, positive weights, each within a relative 1e-15 (N+1/2)^2 of the true weight; polynomials of degree below 2N are integrated over (-1,1), or over a bin [a,b] after mapping, with an error of at most (b-a)(N+1/2)^2 (1e-15 max|f| + 3e-31 (b-a)/2 max|f'|).", "quantifier": "all numbers of points up to ten million, all previous array contents, all polynomials of degree below 2N, all bins", "why_tests_cant": "the routine contains an unbounded loop; that it ends, finds every root once and gives the right weights for each N is a statement about all N", "anchors": ["CPP/General_functions/gauss_legendre.cpp: gauss, updateRange_a_b"]}
{"id": "C122", "title": "The meshes of the chiral potentials are Gauss-Legendre rules for every even number of points", "statement": "For every even number of points (2 to ten million; the program uses 96, 50 and 30) and every interval, the mesh routine of the chiral potentials comes to an end after at most seven Newton passes per root and, whatever its uninitialised local variable and the output arrays held, stores that interval's Gauss-Legendre rule: strictly increasing points strictly inside the interval, positive weights, polynomials of degree below 2N integrated up to an explicit error. For an odd number of points of at least three the middle root's Newton loop is never entered, and the middle weight, made from the derivative left over from the previous root, is too small by at least a relative 1/(N+1/2)^2; for a single point the weight is made from a variable never set. No mesh of the program has an odd number of points.", "quantifier": "all even and odd numbers of points up to ten million, all intervals, all contents of uninitialised variables and output arrays", "why_tests_cant": "the routine contains an unbounded loop and reads a variable it may not have set; the claim is about all mesh sizes and all such contents", "anchors": ["CPP/Interactions/chp/chiral-twobody-potentials.f90: chp_setup_gauleg_mesh, setup_zmesh, chp_setup_2PE_2loop_int_data"]}
{"id": "C123", "title": "The quadrature of the permutation matrix is delivered for every size, and is Gauss-Legendre in x and phi", "statement": "For every number of phi points from 1 to 3000 and every interval of angles, the phi mesh of the permutation matrix is delivered: although its start values are made with 3.14159 in place of pi, every start value lies where Newton's method converges to the root with the same number, so GSL never stops the program and a hundred passes always suffice (also for the middle root of an odd mesh, where the relative convergence test compares with a vanishing root). The mesh is the interval's Gauss-Legendre rule: strictly increasing points strictly inside, each within 4e-18 (N+1/2)^2 of half the interval, positive weights within a relative 4e-18 (N+1/2)^4; polynomials of degree below 2N are integrated up to an explicit error. Together with the x mesh (any size up to ten million) the quadrature therefore exists for all sizes, meets the conditions under which the permutation matrix was proved correct (C85-C87), and the phi rule of each cell is its Gauss-Legendre rule.", "quantifier": "all numbers of phi points up to 3000 and of x points up to ten million, all intervals, all cells of all grids", "why_tests_cant": "the statement is about all mesh sizes and all roots of each; that no start value leads to another root, to a GSL error or to a poor point cannot be sampled", "anchors": ["CPP/auxiliary.cpp: roots, calc_gauss_points", "CPP/make_permutation_matrix.cpp: calculate_WP_overlap, fill_P123_arrays"]}
{"id": "C124", "title": "LO_internal's force is the exact partial-wave projection to an explicit accuracy", "statement": "The angular integrals of one-pion exchange in LO_internal, computed with the program's own 150-point mesh, differ from the exact integrals over the cosine by at most pi gA^2/(4 fpi^2 mpi^2) (8/(1+mpi/Q)^(300-n-l) + 5e-11) for Legendre index n <= 101, momenta up to Q <= 10^6 MeV. Hence for every J up to 100 each of the six elements differs from regulator times (one-pion exchange with exact integrals times the isospin factor, plus contact term) by at most an explicit bound that is quadratic in the momenta and falls exponentially with 299-J; for momenta up to 1000 MeV it is below 1.3e-13 MeV^-2, while the S-wave element at rest is above 4e-6 MeV^-2.", "quantifier": "all momenta from 0 to 10^6 MeV, all J up to 100, all six elements, whatever memory held before the mesh was made", "why_tests_cant": "the error is a maximum over a continuum of momenta and includes the error of the mesh itself; a test compares with another quadrature at chosen points", "anchors": ["CPP/Interactions/OPEP.cpp: OPEP, angIntegral, potential", "CPP/Interactions/OPEP.h: nz", "CPP/Interactions/chiral_LO_internal.cpp: V", "CPP/General_functions/gauss_legendre.cpp: gauss"]}
{"id": "C125", "title": "One-pion exchange in the chiral potentials is projected exactly to an explicit accuracy", "statement": "For IS_LO, IS_NLO, IS_N2LO, IS_N3LO and N2LOopt, every line of parameters, every pair of partial waves with J up to 38 and all momenta up to Q (at most twice the cutoff), the element the program computes with its own 96-point mesh differs from the force whose one-pion exchange is projected with the exact angular integral by at most regulator/(2 pi)^2 * 3 gA^2/(4 fpi^2) * (p+p')^2/mpi0^2 * (8/(1+mpi0/Q)^(191-J) + 2e-9). For IS_LO, which has no two-pion exchange, this is the whole force: its elements agree with the exact projection of one-pion exchange plus contact terms within 1e-11 MeV^-2 times the regulator.", "quantifier": "the five models, all parameter lines, all momenta up to twice the cutoff, all partial waves with J up to 38, all isospin projections, whatever memory held before the mesh was made", "why_tests_cant": "the error is a maximum over a continuum of momenta and includes the error of the mesh itself; a test compares with another quadrature at chosen points", "anchors": ["CPP/Interactions/chp/chiral-twobody-potentials.f90: chp, pwd_T, pwd_integral, setup_zmesh, nof_theta_int_points", "CPP/Interactions/chiral_twobody.cpp: V"]}
{"id": "C126", "title": "Result files are self-describing and lossless as whole texts", "statement": "For every channel, potential name and mesh, every number of deuteron states below 1000 and every number of energies, the text of the elastic result file can be read without knowing the run: its head names JP, potential, Np and Nq; its data rows are first one row per pair (r,c) of deuteron states, with the name Urc, the indices and the quantum numbers l, 2j of both states, and then one row per energy with lab energy, c.m. energy, bin and the amplitudes, word 3+nd*r+c being amplitude (r,c). Two calculations whose files have the same text have the same channel, potential, mesh sizes, deuteron states, energies, bins and amplitudes, to the last bit. The breakup file has the same head, and its data rows are the rows of the breakup table in order, to the last bit.", "quantifier": "all channels of either parity, all one-word potential names, all mesh sizes, all numbers of deuteron states below 1000 and of energies, all finite values", "why_tests_cant": "a golden-file test compares one text; that no two different results produce the same file is a statement about all pairs of results", "anchors": ["CPP/disk_io_routines.cpp: store_U_matrix_elements_txt, store_U_BU_matrix_elements_txt"]}
{"id": "C127", "title": "Complete runs with the program's own grids and meshes", "statement": "A run whose bins come from the Chebyshev formula (any positive scale and sparseness), whose permutation quadrature is the one the program makes (any Nx up to ten million, any Nphi up to 3000) and whose chiral force uses the program's own 96-point angular mesh leaves, for every channel and every line of the parameter file, the files of C115 with the force of that line - nothing about grids or meshes is assumed, their properties follow from the routines that make them. For IS_LO the force in every file equals one-pion exchange plus contact terms with the constants of its line, projected with the exact angular integral, up to 1e-11 MeV^-2 times the regulator, for momenta up to 900 MeV and J up to 38. The same without a walk for any Hermitian potential. The meshes exist for all these sizes, whatever memory held.", "quantifier": "all chiral models, parameter files, sizes, scales, channels, parameter sets, thread orders, contents of fresh memory; matrices computed or read from a file", "why_tests_cant": "a statement about the composition of every routine of the program for all inputs; a test covers one run", "anchors": ["CPP/main.cpp: main", "CPP/make_wp_states.cpp: make_chebyshev_distribution", "CPP/make_permutation_matrix.cpp: fill_P123_arrays", "CPP/General_functions/gauss_legendre.cpp: gauss", "CPP/Interactions/chp/chiral-twobody-potentials.f90: setup_zmesh"]}
{"id": "C128", "title": "Rounding in the kinematic conversions", "statement": "Executed in IEEE double precision, lab energy to c.m. momentum has a relative error of at most 4e-15 for every lab energy between 1e-50 and 1e50 MeV and every deuteron binding energy between 0 and 3 MeV; the four conversions between c.m. energies and momenta have at most 2e-15; c.m. momentum to lab energy, whose root formula cancels, has an absolute error of at most 1e-14 (m_p + q^2/m_d) for momenta from 1e-50 to 1e50 MeV, i.e. 1e-11 MeV below 700 MeV.", "quantifier": "all doubles in these ranges; every arithmetic unit that rounds to a nearest double (ties either way)", "why_tests_cant": "there are 2^64 arguments; a test sees a few", "anchors": ["CPP/General_functions/kinetic_conversion.cpp: lab_energy_to_com_momentum", "CPP/General_functions/kinetic_conversion.cpp: com_momentum_to_lab_energy", "CPP/General_functions/kinetic_conversion.cpp: com_energy_to_com_q_momentum", "CPP/constants.h: MN"]}
{"id": "C129", "title": "The momentum grid in double precision", "statement": "The Chebyshev boundaries as computed in double precision, with the program's M_PI and the C library's tan and pow, start at 0 and increase strictly: rounding never merges or reorders two boundaries, for up to a million bins, sparseness from 1e-6 to 20 and scale from 1e-100 to 1e100. Every boundary has a relative error of at most 3e-15 N (t+1). Every bin's computed norm is positive (no division by zero later) and its computed midpoint lies strictly inside the bin.", "quantifier": "all numbers of bins, scales and sparseness degrees in these ranges; every arithmetic unit that rounds to a nearest double and every library with tan and pow accurate to 2^-52", "why_tests_cant": "every N, t and scale, and every conforming library", "anchors": ["CPP/make_wp_states.cpp: make_chebyshev_distribution", "CPP/make_wp_states.cpp: p_normalization", "CPP/make_wp_states.cpp: make_fwp_statespace"]}
{"id": "C130", "title": "The on-shell search in double precision", "statement": "Executed in IEEE double precision, the search for on-shell bins never stops the program, whatever energies are requested: the lab energies it returns increase strictly, each is the midpoint energy of its bin up to 1e-11 MeV + 2e-14 T, although it goes through a root formula that cancels; the bin index found from the recomputed momentum is the index of that same bin, and the computed on-shell momentum lies strictly inside it, within 7e-5 of the exact one. Every requested energy between the first and the last midpoint energy is bracketed by two neighbouring computed energies. The grids the program computes for itself (up to 400 bins, sparseness 1 to 20, first boundary at least 0.026 MeV) meet the hypotheses.", "quantifier": "all grids of doubles from 0 to at most 1e9 MeV with first boundary at least 0.025 MeV and bins wider than 0.11 %, all binding energies between 0 and 3 MeV, all lists of energies; every arithmetic unit that rounds to a nearest double", "why_tests_cant": "a search that rounds a momentum into the neighbouring bin fails only for particular grids and energies", "anchors": ["CPP/run_organizer.cpp: find_on_shell_bins", "CPP/General_functions/kinetic_conversion.cpp: com_momentum_to_lab_energy", "CPP/General_functions/kinetic_conversion.cpp: lab_energy_to_com_momentum", "CPP/make_wp_states.cpp: make_chebyshev_distribution"]}
{"id": "C131", "title": "What the user is told about options", "statement": "When the program accepts a command line, it has printed for every argument, in order, exactly this: the usage for -h/--help; for an input file one report per line that gives a value to a name that is no option, showing the line, then the name of the file; for any other argument a report if it has no '=' or gives a value to a name that is no option; finally a note exactly if the requested number of threads exceeds Nq_WP. So no misspelt option goes unnoticed, and nothing else is reported. A run that stops while reading has printed a beginning of this list. The exception, proved too: lines of an input file without '=' (and options without a value) are dropped without a word.", "quantifier": "all argument lists, all contents of input files, all numbers of hardware threads", "why_tests_cant": "a missing report shows only for particular misspellings and places in the input", "anchors": ["CPP/set_run_parameters.cpp: read_and_set_parameter", "CPP/set_run_parameters.cpp: read_input_list_and_set_parameters", "CPP/set_run_parameters.cpp: unrecognised_option", "CPP/set_run_parameters.cpp: set_run_parameters"]}
{"id": "C132", "title": "Memory safety of the calculation", "statement": "During the calculation of the permutation matrix of a 3N channel and the set-up and solution of its Faddeev equations (bin boundaries of the scattering wave packets, resolvent, iterative solver, breakup amplitudes) no array is read or written outside its bounds, for every accepted truncation with the tensor force, interaction, number of bins, quadrature points, energies and deuteron states, and every stored permutation matrix, with these exceptions, each shown to be real: (a) the loop that prepares the next approximant computes the element before the first one of the approximant arrays; (b) with a single p bin the element before the first bin energy is read; (c) with more than 100 solver threads and more than 100 columns in a chunk the fixed array of 100 counters is overrun; (d) with P123_omp_num_threads=0 one thread writes to arrays of no element. The number of solver threads is that of the machine only until the first permutation matrix has been computed; from then on it is P123_omp_num_threads, the call meant to change it back having no effect.", "quantifier": "all accepted parameters, 3N channels, interactions, permutation matrices, on-shell energies, thread numbers and every index any of the modelled loops can produce", "why_tests_cant": "an access outside an array usually goes unnoticed, and each index is a product of many independent sizes", "anchors": ["CPP/make_permutation_matrix.cpp: calculate_permutation_elements_for_3N_channel", "CPP/make_swp_states.cpp: make_swp_bin_boundaries", "CPP/make_resolvent.cpp: calculate_resolvent_array_in_SWP_basis", "CPP/solve_faddeev.cpp: pade_method_solve", "CPP/main.cpp: main"]}
{"id": "C133", "title": "No array is freed twice or used after it is freed; which are never freed", "statement": "In a run of the program no array is freed twice, no delete [] meets a pointer that is not set or an array already freed, and every array handed to a calculation has been allocated and not yet freed, with every combination of options (midpoint approximation, calculating, reading or recovering permutation matrices, solving, breakup, dense solver) and any number of threads, 3N channels, parameter sets, files and iterations. The arrays that are still allocated at the end are exactly: the states and grids (22, or 20 with the midpoint approximation); for each 3N channel the 6 arrays of the quadrature if permutation matrices are calculated, and the column pointers of the permutation matrix if the equations are solved; and for each 3N channel and parameter set 18 arrays (kernel tables, kinematics, flags of the potential) and one for every 3N channel (deuteron states), 3 more with breakup and 2 more with the iterative solver. So memory grows with every parameter set.", "quantifier": "all option combinations, numbers of threads, channels, parameter sets and iterations, all runs that reach the end, and (for the faults) all runs that an error ends somewhere", "why_tests_cant": "double frees and leaks depend on which options occur together and on how often loops are run; a test sees neither a leak nor, usually, a use after free", "anchors": ["CPP/main.cpp: main", "CPP/make_permutation_matrix.cpp: fill_P123_arrays", "CPP/make_permutation_matrix.cpp: calculate_permutation_elements_for_3N_channel", "CPP/solve_faddeev.cpp: pade_method_solve", "CPP/solve_faddeev.cpp: solve_faddeev_equations", "CPP/run_organizer.cpp: find_on_shell_bins", "CPP/make_swp_states.cpp: make_swp_states"]}
{"id": "C134", "title": "Where threads meet, and why results do not depend on the order of threads", "statement": "In the parallel loops (phi meshes and overlaps, 6j symbols, Clebsch-Gordan coefficients, elements of the permutation matrix, first rows and columns of the kernel) two threads never access the same array element with one of them writing, for every division of the iterations among threads, except at the counters of finished rows, which thread 0 reads for its progress line while others count; these are a data race exactly if thread 0 and another thread have rows. The four loops that put the thread files in order are executed in full by every thread, so with two threads every element is written by both: a data race, but each element gets the value of its iteration in every order. So whatever the order in which threads run, the arrays end with the same contents. Nothing keeps threads apart while they write full buffers to their files with HDF5: two can be writing at the same moment exactly if two threads find at least as many elements as a buffer holds.", "quantifier": "all sizes, numbers of threads, divisions of iterations among threads and interleavings of the threads' assignments", "why_tests_cant": "races show up rarely and differently on each machine; interleavings cannot be enumerated", "anchors": ["CPP/make_permutation_matrix.cpp: calculate_WP_overlap", "CPP/make_permutation_matrix.cpp: calculate_permutation_elements_for_3N_channel", "CPP/make_permutation_matrix.cpp: read_and_merge_thread_files_to_single_array", "CPP/solve_faddeev.cpp: calculate_all_CPVC_rows", "CPP/solve_faddeev.cpp: pade_method_solve"]}
{"id": "C135", "title": "A quadrature without points gives an empty permutation matrix that later runs accept", "statement": "Nx=0 or Nphi=0 is not refused. The permutation matrix then computed has no element, whatever the basis, grid, number of threads and contents of memory, and the file written is accepted by every later run of the same basis and grid, whatever that run's own Nx and Nphi: it then works with the zero permutation matrix, with no message.", "quantifier": "all bases, grids, quadratures with Nx=0 or Nphi=0, GSL functions meeting the contract, thread schedules, memory contents and later runs", "why_tests_cant": "tests use sensible quadratures; that nothing downstream notices must hold for every grid and later run", "anchors": ["CPP/make_permutation_matrix.cpp: fill_P123_arrays", "CPP/make_permutation_matrix.cpp: calculate_WP_overlap", "CPP/disk_io_routines.cpp: read_sparse_permutation_matrix_for_3N_channel_h5", "CPP/set_run_parameters.cpp: read_and_set_parameter"]}
