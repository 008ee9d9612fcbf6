# Design of the Lean model of Tic-tac

## 1. Trusted base

* **Lean 4.33.0's kernel.** Every theorem in `MANIFEST.json` depends at most on Lean's standard axioms `propext`,
  `Classical.choice`, `Quot.sound` (`tools/axioms.sh` prints the list for every manifest theorem). No axiom is added and no compiled
  evaluation is used.
* **The reading of the C++ source.** Nothing was compiled or run. Every definition in `lean/Verif/Model` cites the file and lines it
  models and names what it leaves out.
* **Numbers.** C++ `int`/`size_t` are unbounded `Int`/`Nat`, except where the property is about overflow (C59, C118; C118 says for which sizes the unbounded model is exact) — there the 32-bit
  value is modelled as the two's-complement wrap. `double`/`std::complex<double>` are ℝ/ℂ: rounding, NaN and infinities are not
  modelled; a division by zero that would give NaN is the outcome `none` where it matters (`pade_approximant`), elsewhere the
  theorem carries the hypothesis that excludes it (energies on a bin edge in C41/C42).
* **Library routines, by contract.** These are the only statements about code outside the repository:
  | routine | contract in the model | satisfiable? |
  |---|---|---|
  | `LAPACKE_dspevd` (make_swp_states.cpp:21) | `LapackContract`: ascending eigenvalues, orthonormal eigenvectors of the symmetric matrix in the packed triangle | `exists_lapack` |
  | `LAPACKE_zgetrf` | `Getrf`: row-interchanged matrix = L·U | `exists_getrf` |
  | `LAPACKE_zgetrs` | `Getrs`: for non-zero pivots, L·U·X = P·B | `exists_solveMM` |
  | `cblas_dgemm` | `dotMM`, `gemmChunk`: the exact product | (a definition) |
  | `std::sort` | `IsSortIndexes`: some permutation with non-decreasing keys | shown in Props/Sparse |
  | `std::stoi` | executable model of `strtol` base 10 with the `int` range | (a definition) |
  | `std::stod`, `iss >> double` | arbitrary partial function | parameter |
  | GSL 3j/6j/9j, `gsl_sf_legendre_*` | arbitrary functions; in C85–C87 with `GslContract` (triangle rules, array layout) | `gsl_contract` |
  | HDF5 | a file is a list of named data sets; each write may fail | parameter `ok` |
  | `SEX`, `CE1`, `FDEXP` of pnijm.f (in the repository, by contract) | `NijExact`: the integrals they stand for; `NijNear`: up to an error, FDEXP as written (CE1 is proved to meet it: C110) | `exactNum_ok`, example in Props/Nijmegen |
  | OpenMP | any assignment of loop iterations to threads and any interleaving of their stores | quantified |
  | `new T[]` | `double`/`size_t`: arbitrary content; `std::complex<double>`: zeros | quantified |

## 2. What is modelled

| module | C++ source |
|---|---|
| Model/PWStates | make_pw_symm_states.cpp (basis), run_organizer.cpp find_deuteron_channels |
| Model/Channels2N | make_pw_symm_states.cpp unique_2N_idx, array sizes in main.cpp, channel loops of make_potential_matrix.cpp and make_swp_states.cpp |
| Model/Layout | all flat index formulas |
| Model/Tables | Clebsch–Gordan, 6j tables, `Gtilde_new`, `Gtilde_subarray_new` |
| Model/RunParams | set_run_parameters.cpp (all 35 options, files, command line, checks), error_management.cpp |
| Model/Main | main.cpp driver loops, file names, disk_io_routines.cpp text readers and writers, make_wp_states.cpp grid source |
| Model/Sparse | make_permutation_matrix.cpp parallel calculation, thread files, merge, recovery; matrix_routines.cpp sparse formats |
| Model/H5 | disk_io_routines.cpp P123 store/read with all consistency checks |
| Model/Numeric | kinetic_conversion.cpp, grids and quadrature, gauss_legendre.cpp, legendre.cpp |
| Model/Jacobi | auxiliary.cpp pi1/pi2, P123 element; make_permutation_matrix.cpp overlap table |
| Model/Potential | make_potential_matrix.cpp; re-ordering wrappers of the external potentials |
| Model/LOPot | Interactions/OPEP.cpp, chiral_LO_internal.cpp, malfliet_tjon.cpp |
| Model/Swp | make_swp_states.cpp |
| Model/Resolvent | make_resolvent.cpp |
| Model/OnShell | run_organizer.cpp |
| Model/Kernel | solve_faddeev.cpp: pointer tables, columns and rows of the kernel |
| Model/Pade, Model/PadeSolve | solve_faddeev.cpp: Padé approximants, Neumann iteration, convergence bookkeeping; matrix_routines.cpp determinant |
| Model/Permutation, Model/FillP123 | make_permutation_matrix.cpp: everything fill_P123_arrays computes; auxiliary.cpp Atilde, ClebschGordan, calc_gauss_points |
| Model/Dense | solve_faddeev.cpp dense solver, choice of solver; solve_MM |
| Model/Run | one channel and a whole run from files to the printed amplitudes (main.cpp order of calls) |
| Model/BreakupTable | run_organizer.cpp breakup indexing, breakup files |
| Model/PhiMesh | the angular grids of the permutation matrix |
| Model/Format | number formatting of the text outputs (`%d`, fixed, scientific), file names |
| Model/Chp | Interactions/chp/chp-set.f90 (six presets), chiral-twobody-potentials.f90 `chp`: projection, one-pion exchange, contacts, regulators; the wrappers |
| Model/Loops | chiral-twobody-potentials.f90:1839-3053: every loop function of two-pion exchange, the tables kept between calls |
| Model/Walk | potential objects, `fetch_potential_ptr`, `update_parameters`, the parameter-walk loop of main.cpp |
| Model/Nijmegen, Model/NijmegenForce | Interactions/nijmegen: pnijm.f (projection, exchanges, couplings, parameter tables), nijmegen_interface.f90, nijmegen.cpp |
| Model/NijmegenNum | Interactions/nijmegen: pnijm.f (CE1, FDEXP) |
| Model/NijmegenSex | Interactions/nijmegen: pnijm.f (SEXN, PLCFS, GRENS) |
| Model/NijmegenSml | Interactions/nijmegen: pnijm.f (SEX, SMLLEX, QJ99, HYPRG99) |
| Model/NijmegenRun | Interactions/nijmegen: pnijm.f (VMOM with SEX, history) |
| Model/Program | main.cpp (loops), disk_io_routines.cpp (store_U_matrix_elements_txt: rows) |
| Model/NijmegenCache | Interactions/nijmegen: pnijm.f (nijm, PNIJMLSJ, VMOM with saved variables), nijmegen_interface.f90, nijmegen.cpp |
| Model/Sizes | int size and index expressions of main.cpp, make_permutation_matrix.cpp, make_swp_states.cpp, make_potential_matrix.cpp, make_resolvent.cpp, run_organizer.cpp, disk_io_routines.cpp, make_wp_states.cpp |
| Model/Record | set_run_parameters.cpp (create_input_printout_string, end of set_run_parameters), disk_io_routines.cpp (store_run_parameters) |
| Model/Kinematics | make_swp_states.cpp (store_swp_kinematics), disk_io_routines.cpp (store_q_WP_kinematics_txt) |
| Model/GaussRun | gauss_legendre.cpp (gauss as a whole) |
| Model/ChpMesh | chiral-twobody-potentials.f90 (chp_setup_gauleg_mesh) |
| Model/PermQuad | make_permutation_matrix.cpp:1329-1343 (where the quadrature comes from) |
| Model/ResultFile | disk_io_routines.cpp:563-704, 753-911 (whole texts of the result files; layout of the numbers in Model/Format) |
| Model/Double | constants.h:19-22, kinetic_conversion.cpp:5-7, 22-54, make_wp_states.cpp:3-15, 26-43, 150-162 in double precision, operation by operation; the arithmetic unit and the C library are parameters with contracts in Spec/Double |
| Model/DoubleShell | run_organizer.cpp:4-131 (find_on_shell_bins), kinetic_conversion.cpp (mu1) in double precision |
| Model/Messages | set_run_parameters.cpp:247-280, 544-577, 617-683 with the messages printed (wording not modelled) |
| Model/Bounds | allocations and index expressions of make_permutation_matrix.cpp:324-943, make_swp_states.cpp:146-183, 221-470, make_resolvent.cpp:82-end, solve_faddeev.cpp:4-269, 440-1443, 1588-1927, main.cpp:239-437 (accesses only, one constructor each) |
| Model/Heap | `new []`, `delete []` and pointer assignments of main.cpp, make_pw_symm_states.cpp, make_wp_states.cpp, make_permutation_matrix.cpp, General_functions/matrix_routines.cpp (sorter, transpose), make_potential_matrix.cpp, make_swp_states.cpp, run_organizer.cpp, solve_faddeev.cpp (order of operations only; loops with any number of iterations) |
| Model/Races | the OpenMP regions of make_permutation_matrix.cpp:150-237, 416-438, 477-500, 692-887, 1058-1138 and solve_faddeev.cpp:183-269, 1037-1071 (shared accesses by thread; interleaved assignments) |

**Not modelled:** WEX, GAUSS and negative x in pnijm.f (SEX and CE1 enter the potential of C108 by contract and are proved separately in C110 to C113), its unused options, GSL's numerics, the Python scripts, progress
printing, wall-clock timing, floating-point rounding, memory exhaustion, the content (not the structure) of the HDF5 byte format,
dead code (`if (false)` branches, unused routines in auxiliary.cpp).

Undefined behaviour (out-of-range access, null write, uncaught exception, integer division by zero) and `raise_error` are distinct
outcomes of the model functions, so "does not happen" is a statement that can fail.

## 3. Layout of `lean/Verif`

`Model/*` definitions transcribed from the code; `Spec/*` small independent specifications (no model helpers beyond the data types);
`Lemmas/*` helper lemmas; `Props/*` the property theorems, each with a non-vacuity `example` that a concrete case meets its hypotheses.
`seeded/LOG.jsonl` records the wrong programs tried against the theorems (model edited in a scratch copy, rebuilt).

Expectations that are false of the code get a theorem proving the negation (for every input of the offending kind where possible, otherwise
on a witness). Where the exact condition under which the expectation holds has been proved (an "exactly when" theorem, Props/Exact*, Props/PotModes
and others), properties.jsonl states the property in that exact form and keeps the expectation in parentheses; the status is then `proved`. Where only a
part is proved the theorem keeps the suffix `_partial` and the status is `partial`.

## 4. Plan per property

| id | what is modelled and what the theorem says | method |
|---|---|---|
| C01–C03 | nested loops of construct_symmetric_pw_states as comprehensions in loop order with the channel bookkeeping fold; the basis equals the set defined by Spec/PWStates (`Allowed`), without repetition, in contiguous blocks | membership lemma per loop, lexicographic nodup, fold invariant |
| C04 | find_deuteron_channels: exactly the 3S1/3D1-with-neutron states of each block; none for J_2N_max=0 | symbolic evaluation of the filter |
| C05, C06, C07 | unique_2N_idx with its abort, allocation sizes; slots in range and shared exactly by states of the same 2N interaction; false without tensor force (C06 range for every J_2N_max≥2, C07 every run with isospin breaking stops) | integer arithmetic; negations |
| C08–C12, C54, C62 | command line and file parsing on characters, all options; result equals "last assignment wins" spec; which inputs throw, stop or are accepted; exit status | fold invariants over arguments and lines; negations |
| C13, C64 | main loop as a work list; union of split runs is a permutation of the single run | list reasoning |
| C14, C61, C68 | file-name strings; injectivity; 300-character buffers; Neumann file overwritten per parameter set | decimal encoding injective with separators; negations |
| C15, C65 | any thread schedule, buffer size and leftover disk content gives the same sorted matrix; buffers stay in range | invariant over all traces, permutation + sortedness uniqueness |
| C16 | recovery of interrupted computation; false (file count estimated as 0 for dense dimension up to 5792) | arithmetic; negation |
| C17, C18, C66, C67 | H5 file as named data sets; round trip, rejection of every mismatching key; settings not stored, failed writes unreported | case analysis; negations |
| C19, C21 | sorting, CSC/CSR pointers, dense/COO conversions with null-pointer outcome | counting invariants; negation for COO→dense |
| C20, C53, C59 | all flat indices injective and in range; tables read back what was computed for every fill order; 6j size overflow unreported | mixed-radix arithmetic; negation |
| C22, C70 | kinematic conversions inverse, monotone, and the relativistic two-body relation | real algebra |
| C23, C26, C29, C69 | grids, mapped quadrature, Legendre recursion, Gauss–Legendre exactness to degree 2N−1 | real analysis, polynomial algebra (orthogonality, Lagrange interpolation) |
| C24, C25, C50, C51, C63 | text readers with out-of-range and division-by-zero outcomes | list induction; negations |
| C27, C28, C58, C71 | Jacobi momenta in any inner product space; P123 element vanishes for incompatible cells; overlap table loses nothing; radial integral exact | inner-product algebra, interval arithmetic, integrals |
| C30, C79 | OPEP, LO contact, Malfliet–Tjon: formulas, isospin factors, hermiticity, table end | real algebra |
| C31, C32, C55 | component selection, isospin averaging, whole stored matrix; midpoint+breaking false | case analysis over symbolic J; negation |
| C33, C35, C36, C37, C34, C72 | free Hamiltonian bin averages, packed Hamiltonian, reordering, boundaries, bound-state check, each channel once | integrals, packed index injectivity, list invariants |
| C38, C39, C40, C74, C75 | on-shell search, breakup cells; index −1 recorded, off-shell cells recorded | list induction, monotonicity; negations |
| C41, C42, C73 | resolvent = average of 1/(E−E') over bins (principal value and cut), paired with the own channel's energies | integrals with logarithms, pointer arithmetic |
| C43 | pointer tables and kernel columns/rows equal CᵀPVC | finite sums over matrices |
| C44, C45, C47, C77 | Neumann iteration with row compaction and chunks; convergence bookkeeping; unassigned elements with breakup | loop invariants; negations |
| C46, C76 | Padé approximants from determinants exact on rational series; determinant from LU | linear algebra |
| C48, C78 | dense solver solves (1−AG)U = A; agrees with Padé for high order; breakup zero with dense solver | matrix algebra; negation |
| C49, C52 | output tables and breakup array writes | list reasoning; negations |
| C56, C57 | reads in construct_symmetric_pw_states, printed parity | negations for every accepted truncation |
| C60 | optimised G equals its defining formula for arbitrary coefficient functions | finite sums |

Properties added later are described in the same way in section 5.

## 5. Later additions

| property | what is modelled | how it is proved |
|---|---|---|
| C80 | `Model/Run.lean`: the body of the channel loop of main.cpp:225-437 (potential arrays → wave packets → on-shell bins → resolvents → kernel tables → solver) as a composition of the models of the stages; undetermined memory, LAPACK's choices and thread order are in `RunEnv`. Spec in `Spec/Run.lean`: matrices on (state, q bin, p bin), bin averages as integrals. | refinement: each stage's theorem (C32, C72, C39, C42, C43, C47, C48) is transported to matrices over the channel's index set; `Props/RunExample.lean` constructs a complete run meeting the hypotheses |
| C81 | `Model/BreakupTable.lean`: `restructure_breakup_data` (both passes, `std::map`s as key lists). Spec `IsBreakupTable`: places of amplitudes, headings, blanks. | invariant of the first pass over the events (`Scanned`), then uniqueness of writes in the second pass; `C81_run` derives the hypotheses from the on-shell search |
| C82 | headings of the table (`buLabel`) | text of numbers is uniquely decodable + isospins follow from antisymmetry; counterexample with isospin breaking |
| C83, C84 | neighbours appended by `find_on_shell_bins` | general conditions under which the bound-state bin / the same cell twice is recorded, with concrete instances |
| C85, C86 | Model/Permutation: phi meshes, overlap table, 3j/6j tables, recoupling store, Legendre arrays, geometric function, matrix elements, with the contents of fresh memory and the order of parallel writes as parameters; Spec/Permutation: formula with unrestricted sums (`finsum`) and an integral | read-back lemma per table, selection rules remove the terms outside the loops, C58/C71 for overlap and radial integral, C15 for the parallel stores |
| C87 | Model/FillP123: computed or read from file; composition with C17, C18, C80 | composition |
| C88 | Model/PhiMesh: Newton loop of `roots` with GSL's stops and the cap of 100 iterations, mapping of `calc_gauss_points` | Sonin function n(n+1)P²+(1-x²)P'² is monotone, so P' does not vanish where P is small; real-rootedness for the distance to a root; `gauss_exact` |
| C89 | two environments (LAPACK, memory, schedule) for Model/Run | uniqueness of spectra and of eigenvectors up to sign, kernels differ by a diagonal of signs, which drops out of on-shell elements; simulation of two Padé loops (`SameTab`); counterexample with a geometric series |
| C90, C91 | Model/Format: IEEE doubles as (sign, mantissa, exponent), `operator<<` as contract `Prints` (nearest decimal of 17 digits), columns and rows of the tables; Spec/Format: an independent reader | spacing of doubles against half a unit of the 17th digit; reader run on the text; C91 by the text of minus zero |
| C92 | `store_q_WP_boundaries_csv` in fixed format | two doubles that round to the same 1e-8 |
| C93, C94 | Model/Chp: `chp`, the projections `pwd_*`, regulators, contact terms, the six preset routines (Fortran); the closed forms of the two-pion loop functions enter as an arbitrary function `prof` of the constants, the nucleon mass, q² and k². Spec/Chp: a force as an operator on spin-1 vectors (cross products), vector spherical harmonics through surface gradients of P_J, projection by contraction. Spec/ChiralForce: constants by column, pion exchange, contacts per wave | Legendre recurrences and derivative identities, vector algebra at one cosine, then linearity of the quadrature; case analysis over J for the contacts. C94: each projection commutes with the exchange of the mixing elements |
| C95 | Spec/ChiralColumns: name of each column, waves of each constant | C93 and linearity of the contact terms in each constant; positivity of the shape functions |
| C96-C98 | Model/Walk: the potential object (class and last array handed to the preset), `fetch_potential_ptr`, `update_parameters` of every class, the loops of main; `none` for a read outside the numbers of the file. Fresh memory is a parameter | invariant over the list of solves (each update forgets the previous one); C50 for the file; C95 for the effect of uninitialised constants |
| C06-C11, C16, C24, C25, C32, C38, C45, C49, C51, C52, C59, C63, C64, C66-C68, C74, C77, C78, C82, C83, C84, C91, C92 (exact forms) | Props/Exact, Exact2, Exact3, Exact4, Recovery (C16), Accept (C77, C78; acceptance rule in Spec/Accept): necessary and sufficient conditions | the sufficient direction from the earlier theorem, the necessary one from the counterexample theorem generalised to every input of that kind |
| C31, C32 (every mode) | Props/PotModes: the stored element in every mode, `Spec.storedInteraction` | case analysis of the stores of a 1S0 job with midpoint rule and isospin breaking |
| C99 | Model/Loops; Spec/TwoPion: published expressions by order, spectral integrals, dispersion integrals | algebra per class; integrals by explicit antiderivatives (Lemmas/Spectral); substitution z = 2m/mu; C93 for the potential |
| C100 | the loop functions A, L with and without cutoff | fundamental theorem of calculus on the half line, monotonicity of the antiderivatives |
| C101 | two-loop isoscalar central term of IS_N3LO | partial fractions with an explicit antiderivative for the rational part; the logarithmic part compared point by point with the program's sum |
| C102 | the expansion used from z = 0.95 to 1 | certified polynomial bounds (Bernstein form, tools/gentail.py) for the integrals of the logarithm; C102_momenta for the momenta of a run |
| C103 | the helper for the bracket | monotone error functions (derivative sign) |
| C104 | definedness of the loop functions | positivity |
| C105, C106 | relations between amplitudes | algebra |
| C107 | histories of presets and evaluations | invariant: a table kept is that of the present setting |
| C108 | pnijm.f from the name of a wave to the six numbers, for exact values of its quadrature routines | spin-angle traces of the five operators in coupled states (as C93); exchange by exchange comparison of arrays with projected integrals, the quadratic spin-orbit term by integration by parts against tail integrals |
| C109 | the same routines with arbitrary quadrature values | every coefficient and array depends on symmetric combinations of the momenta |
| C110 | CE1 and FDEXP with their coefficients and loops | defect of each piece bounded by Bernstein coefficients checked in the kernel, then monotonicity; remainder of the series and of the asymptotic sum |
| C111 | SEXN with the table and keys it keeps, PLCFS, GRENS | invariant over histories: the table holds the moments of its keys; forward recursion exact, backward recursion damped by a product bounded through the convexity of t log t and two-sided bounds of GRENS |
| C112 | SEX, SMLLEX, QJ99, HYPRG99 | series of the Legendre functions of the second kind by their three-term recursion and decay; Taylor bounds of the exponential and orthogonality; calls of the other branch by C111 on the filtered history |
| C113 | VMOM, PSVECT, VECTOR, SCALAR, DIFRAC with SEX | the exchanges of an evaluation as a list of calls with the memory of SEX threaded through; invariant: tables left in memory are good for the waves of the evaluation that left them; induction over the exchanges and over the history |
| C114 | nijmegen::V, vnijm, nijm, PNIJMLSJ, VMOM with their saved variables and COMMON blocks | invariant: what is kept is what its keys (wave name, charge type) say; induction over the history |
| C115 | main: the channel and parameter-set loops around potential, permutation matrix, set-up, solver and output of elastic and breakup amplitudes | induction over the solves of the run; C14 (names), C96 (force), C87 (amplitudes), C116/C81/C40 (breakup file), C38/C39 (rows), C49 (columns), C89 (two machines) |
| C116 | the channel calculation of C80 with breakup, followed by the breakup table of C81 | C47/C77 invariants of the iteration for the breakup elements, C81 (rows and columns), C39/C84 for completion |
| C117 | search for breakup cells against the resolvent array, in a channel calculation | C40 (recorded cells), C42 (imaginary part), ordering of the bins |
| C118 | size and index expressions as syntax with exact and wrapped value | bounds on every subexpression; sharpness from the extreme values of the loop variables |
| C119 | record text as a relation (label, value) lines | label lookup by colon, uniqueness of labels by kernel evaluation, digits read back; re-reading via C08/C12 |
| C120 | table values in exact arithmetic, file text as a relation | rows read back by words/digits, order by monotonicity of the conversions (C22), request via C38/C39 |
| C121 | Newton loop of C69 with its real start values | Sturm comparison for sqrt(sin t) P_N(cos t) locates all zeros and bounds the gaps from both sides; the start value lies beyond the root within the convex zone, so Newton converges monotonically and quadratically |
| C122 | the do-while loop with its carried-over variables | the Newton lemmas of C121 with the loop's other stopping test; for odd counts the start value of the middle root is exactly the root |
| C123 | the GSL Newton loop of C88 | two-sided local analysis of Newton's method from Legendre's equation, start distances from the Sturm bounds of C121 with the perturbation of pi |
| C124 | the models of C30 and C121 | polynomial approximation of the pion propagator by Chebyshev polynomials, exactness of the Gauss rule, perturbation by the error of the stored mesh |
| C125 | the models of C93 and C122 | the integrand of the projection is a polynomial times the propagators; polynomial approximation of these, exactness of the Gauss rule, perturbation by the error of the stored mesh |
| C126 | the two writers as functions to text | lines split at line ends; comment lines start with '#', data lines with a blank; words of right-aligned entries; C90 for the numbers |
| C127 | the models of C115, C122, C123, C125 | hypotheses on grids and meshes discharged by the theorems about the routines that make them |
| C128 | each conversion operation by operation with an arithmetic unit as parameter | roundings counted multiplicatively, over- and underflow excluded by orders of magnitude; the cancelling formula by absolute errors |
| C129 | make_chebyshev_distribution, the norms and the midpoints operation by operation | ratio of neighbouring angles and tangents against the accumulated roundings |
| C130 | find_on_shell_bins operation by operation with an arithmetic unit as parameter | error of each computed energy against the distance to the boundaries of its bin |
| C131 | the parser with a log of messages | induction over arguments and lines, each loop carrying the list printed so far |
| C132 | an inductive relation with one constructor per access site; every constructor shown inside the allocated length | radix bounds from the loop bounds and from C06/C07/C15/C19/C39/C40; run-level hypotheses from C80's setup |
| C133 | programs of allocation, delete [], null, use, assignment and end-of-scope operations with a heap of addresses and faults | an abstract checker of ownership and leaks, proved sound by induction over programs and iterations; its result on the program computed by the kernel for all 64 option combinations |
| C134 | an inductive relation of the accesses of each thread in each region, by schedule; assignments interleaved arbitrarily | injectivity of the index expressions; a footprint argument: each thread's part of memory is the same as if it ran alone |
| C135 | the model of C85, C87 with a mesh of length zero | the formula's sums are empty, so every element is zero and C85 says nothing is stored; C87 for reading |
