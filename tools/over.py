# restated properties: id -> (title, statement)
O={}
O["C06"]=("Two-nucleon storage slots with tensor_force=false","With tensor_force=false and isospin_breaking_1S0=false every basis state gets a non-negative slot and different 2N channels get different slots; every slot is inside the allocated array exactly when J_2N_max is at most 1. (A user expects it always: for every J_2N_max >= 2 some state's slot is beyond the array.)")
O["C07"]=("Which flag combinations run","The loops over two-nucleon channels (potential and scattering wave packets) run to the end exactly when tensor_force is on or isospin_breaking_1S0 is off, for every truncation; otherwise the run stops. (A user expects every documented combination to run: with the default isospin flag no tensor_force=false run does.)")
O["C09"]=("Which values are accepted for a key","An argument list is read to the end exactly when every argument is long enough, it is not a lone help flag, and every assigned value is of its key's type: true/false for flags, a number for doubles, a text that begins with a 32-bit integer for integers - and that integer is the value used. (README says a value of the wrong type stops the program; an integer key given 32.5 or 7x silently takes the integer it begins with.)")
O["C10"]=("When the option parser throws","With valid flag values and no lone help flag, the parser ends in an uncaught exception exactly when an argument other than -h has fewer than four characters or a numeric key is given a text that does not begin with a number; every other unrecognised argument is skipped. (A user expects that no argument does.)")
O["C11"]=("key=value is an assignment unless the value ends in .txt","For every known key and every non-empty well-formed value that does not end in .txt, key=value sets that parameter and no other; key=value with a value ending in .txt sets nothing (it is taken for a file of parameters). (A user expects energy_input_file=my.txt to be an assignment.)")
O["C21"]=("Conversions between dense and COO","Converting a dense matrix to COO keeps exactly its non-zero elements in row-major order. Converting COO to dense never delivers: with any entry it stores through an unallocated pointer, without entries the caller's pointer stays unset. (A user expects the second conversion to invert the first.)")
O["C24"]=("When a custom q grid is used","The q grid comes from the user's file exactly when the q type is not chebyshev and the p type is custom; it is the Chebyshev grid exactly when the q type is chebyshev; every other combination stops with an error - in particular q_grid_type=custom with a Chebyshev p grid. (A user expects the file to be used whatever the p grid type.)")
O["C25"]=("What a custom grid file does","A grid file is accepted exactly when it has N+1 lines, all numbers, and then those are the boundaries; memory outside the N+1 boundaries is written exactly when the first N+2 lines are numbers; every other file is rejected with an error. (A user expects too long files to be rejected before anything is written.)")
O["C31"]=("The right potential component is used for each pair of states","For every bra/ket pair (L',L,S,J) allowed by coupling rules, the element taken from the six-component potential array is the component the array documents for (coupled?,S,L',L relative to J), and with the tensor force on the assembled potential matrix of a channel is symmetric when the potential is Hermitian, in every integration and isospin mode.")
O["C32"]=("Isospin averaging of the pair interaction","For T=1 pairs without 1S0 breaking the interaction used is 2/3 V_nn + 1/3 V_np; with breaking, the 1S0 block over T3=1/2,3/2 is [[2/3 nn+1/3 np, sqrt2/3 (nn-np)],[same,1/3 nn+2/3 np]]. With the tensor force on, the whole stored matrix is the wave-packet average of this interaction for every potential exactly when midpoint_approx is not combined with isospin breaking; in that combination the 1S0 pair gets the plain average (2/3 nn + 1/3 np) of components of V that belong to coupled waves, all other pairs the right interaction. (A user expects it in every mode.)")
O["C38"]=("Requested energies are bracketed by two computed energies","A requested lab energy is bracketed by two neighbouring wave-packet midpoint energies that are both in the output exactly when it lies between the first and the last midpoint energy; outside it is dropped silently. (A user expects every requested energy to be bracketed.)")
O["C40"]=("Which breakup cells are recorded","Below the breakup threshold no cell is recorded; above it, exactly the cells whose energies contain E_com and for each of them one neighbour in q, one in p and the diagonal one, chosen by the side on which E_com lies; the offsets delimit each energy's own cells. Indices can therefore be -1 or N: for a cell in the first p bin with E_com below its middle, index -1 is recorded. (A user expects all indices to be inside the grids.)")
O["C45"]=("Column chunking covers the matrix exactly once","For every dimension, the chunks used for the multiplication are non-empty, in range and cover every column exactly once - exactly up to dimension 2^28; beyond, a chunk has no columns. (A user expects it for every dimension.)")
O["C47"]=("Every on-shell element gets a final value","When the Pade solver returns, every elastic and breakup element has a value from one of its computed approximants, of order at most 14 - unless the solver stopped because the number of accepted elements of both kinds reached the number of elastic ones: then, if there are breakup elements, at least one element was never assigned and is read through an index that was never written. Without breakup the result is always complete. (A user expects it always; a run in which the reported value is not an approximant is exhibited.)")
O["C49"]=("When the column labels of the elastic table are right","In the U-matrix output file row i holds energy i and the columns hold the elements row deuteron by column deuteron in row-major order; every column stands under the heading Ujk of its own element exactly when the channel has one or three deuteron states; with two the headings are wrong. (A user expects it for every number.)")
O["C51"]=("Which parameter-set ranges stay inside the file","All numbers read by a walk are numbers of the file exactly when the range PSI_start..PSI_end is empty or lies within 0..number of lines; the program's own check accepts exactly the ranges whose length is at most the number of lines, so ranges outside the file pass it. (A user expects that a started run reads sets of the file only.)")
O["C52"]=("When the breakup output array is large enough","With at least one recorded cell, all writes of breakup amplitudes are inside the allocation exactly when there are at most as many deuteron states as energies. (A user expects it always: one energy in a channel with two deuteron states writes outside.)")
O["C54"]=("Which ends of a run a batch script can see","The exit status is non-zero exactly for an uncaught exception and the help exit; every run that stops with an error message of the program has status 0. (A user expects non-zero for every error.)")
O["C56"]=("Reads while the basis is built","For every accepted truncation the loop that determines the largest channel reads one element beyond the vector of channel boundaries; after the final push_back the same reads are in range. (A user expects no read outside.)")
O["C57"]=("The printed channel banner shows the opposite parity","The JP label printed when a channel is constructed shows, in every channel of every truncation, the parity opposite to the PAR column of its states. (A user expects the same.)")
O["C61"]=("Which file names work","A file name is copied intact exactly when it has at most 299 characters; longer names overflow the buffer - in particular every P123 file in a folder whose name has 272 characters or more. (A user expects every length to work.)")
O["C62"]=("How the energy file can be chosen","On the command line energy_input_file=NAME never selects a readable file: a NAME ending in .txt is not assigned, any other is assigned and then rejected. In a file of parameters the line energy_input_file=NAME.txt selects NAME.txt, which is then read if it exists. (A user expects the command line to work.)")
O["C63"]=("What a missing or empty parameter file does","Reading the parameter sets divides by zero exactly when the file is missing or empty; no message is given. (A user expects an error message.)")
O["C64"]=("What a parallel job does with its channel index","With parallel_run=true a job whose channel_idx is the index of a channel does exactly that channel's work; with any other index it does nothing and ends without an error. (A user expects an error.)")
O["C66"]=("Which P123 files are accepted","A P123 file is accepted exactly when it was written for the same basis and grid - whatever angular quadratures (Nx, Nphi) and production_run flag it was computed with. (A user expects a file computed with other quadratures to be rejected.)")
O["C67"]=("What failed writes of P123 data do","For every set of failing writes: the writing run stops exactly when one of the four counts is among them; otherwise reading stops exactly when one of the three tables is among them; otherwise the matrix is accepted, with zeros in place of each array whose write failed. (A user expects some run to stop whenever a write failed.)")
O["C68"]=("Which Neumann terms are left after a walk","After a parameter walk the file holds the Neumann terms of the last set; the terms of all sets are still there exactly when they are all equal to those of the last set. Runs with other grids, truncations or channels never touch the file. (A user expects the terms of every set.)")
O["C82"]=("When two columns of the breakup file have the same heading","Two different amplitude columns of a breakup file have the same heading exactly when amplitudes are recorded for two partial waves that differ in the total isospin only; never without isospin breaking. (A user expects all headings to differ; a run with equal ones is exhibited.)")
O["C91"]=("When a finite amplitude is written as a complex number","The text of a finite complex amplitude in the output tables is a complex number a+bj or a-bj that a reader (Python complex) accepts exactly when neither part is minus zero; for minus zero '+-0.0...' is written. (A user expects it for all finite amplitudes.)")
O["C92"]=("What the file of q boundaries says about the grid","Every line of q_boundaries_Nq_N.csv is a number within 5e-9 MeV of its boundary, so grids with the same file agree within 1e-8 MeV; different grids with the same file exist. (A user expects the file to determine the grid.)")
O["C93"]=("Chiral potentials are the partial waves of the chiral force","For IS_LO, IS_NLO, IS_N2LO, IS_N3LO, N2LOopt and Idaho_N3LO, every line of parameters and any two-pion loop functions, each element <L',p'|V|L,p> (with the program's sign for mixing elements) is the partial-wave projection of the model's force: one-pion exchange (neutral and charged pions), two-pion exchange with central, spin-spin, spin-orbit, tensor and sigma-L parts, each with its regulator and the minimal-relativity factor, plus the contact terms of that wave; for J up to 38 (the length of the Legendre table) and momenta up to twice the cutoff, zero above. The stored matrices are its wave-packet averages (tensor force on; midpoint rule not combined with isospin breaking, see C32).")
O["C94"]=("Chiral potentials are Hermitian","For every chiral model and every line of parameters, exchanging ingoing and outgoing momenta and orbital momenta does not change an element, and with the tensor force on the stored potential matrices are symmetric in every mode.")
O["C95"]=("Each column of a parameter line is one constant, with its effect and nothing else","For the six chiral models and J up to 38: changing a column that holds a contact constant changes the elements of exactly the partial waves (and charges) that constant belongs to - every two values give different elements there (positive momenta up to twice the cutoff) - and changes nothing elsewhere. The columns of the three-nucleon constants, which every line of IS_NLO and IS_N2LO must have, change nothing at all.")
O["C96"]=("Which constants a parameter walk uses","With parameter_walk and a chiral model, every solve for parameter set i, in every channel, uses the force with the numbers of line i of the file - whatever the range, the sets done before and the initial memory - when the lines have the model's number of columns. Files with more columns are accepted and cut; files with fewer columns are accepted, constant k of set i is then entry k mod n of line i + k/n, and a walk to the end of the file passes the range check and reads beyond it. (A user expects lines that do not fit the model to be rejected.)")
O["C97"]=("Models on which a parameter walk has no effect","For LO_internal, malfliet_tjon and nijmegen a parameter walk accepts any parameter file and every set is solved with the same potential as a run without walk. (A user expects an effect or an error.)")
O["C98"]=("Constants used without a parameter walk","A run without parameter_walk uses, in every channel, the built-in constants for N2LOopt and Idaho_N3LO, whatever the memory holds; for IS_LO, IS_NLO, IS_N2LO, IS_N3LO the constants are read from an array that was never written: whatever it holds, another content changes the neutron-proton 1S0 force at every pair of momenta. (A user expects published constants for every model.)")
O["C59"]=("Which overflows of the 6j table size are reported","The size of the 6j table, (2*lmax+1)^6, is held correctly in its 32-bit integer exactly for lmax up to 17; an overflow is reported exactly when the size reduced modulo 2^32 is at least 2^31 - so for lmax 18 and 19, but not for lmax 20. (A user expects every overflow to stop the program.)")
O["C74"]=("Which cells of positive energy are selected as breakup channels, and where the equations have their cut","A cell of non-negative pair energies is selected on account of its own energies exactly when it contains E_com. The resolvent, which is taken at the total energy E_com + E_bound, has an imaginary part in a selected cell exactly when the cell's lowest energy is below the total energy; a cell with an imaginary part is left out exactly when its highest energy is below E_com. (A user expects the selected cells to be those that contain the total energy.)")
O["C83"]=("When a p bin of negative pair energies is recorded as a breakup cell","Above the breakup threshold a p bin whose lower boundary is a negative energy is recorded for a partial wave exactly when the next bin has no negative energies and, with some q bin, contains the energy in its lower half. (A user expects only bins of non-negative energies, whose boundaries are momenta.)")
O["C84"]=("When a breakup cell is recorded twice","Above the breakup threshold and for ordered grids, no cell (partial wave, q bin, p bin) is recorded twice for one energy exactly when no partial wave has two cells that contain the energy. (A user expects no repetition at all.)")
O["C16"]=("When P123 recovery gives back the computation","After a calculation whose partial files are on an otherwise empty disk, a run with P123_recovery=true reads r files per thread, r being estimated from the dimension and the overlap table, and gets exactly the first r*B elements of every thread (B: size of a thread buffer); the result is the P123 of the uninterrupted run exactly when no thread produced more than r*B elements. For every dense dimension up to 5792 r is 0 and the recovered matrix is empty. (A user expects the same P123 always.)")
O["C77"]=("Which approximant of an elastic element is reported","Without breakup the iterative solver reports, for every elastic element, the diagonal approximant of its exact Neumann series into which the change is smallest, at the first order at which the best change lies more than 4 orders back, is below 1e-7, or is below 1e-6 of the value, or at order 14. In place of the approximant of order -1 stands zero - for the first element the memory cell before the array, at order 14 the last approximant of the element before unless that was accepted earlier. (A user expects that acceptance means two approximants agree: an element of modulus between 1e-15 and 1e-7 is accepted at order 0, and one wrong by half is exhibited.)")
O["C78"]=("Which breakup amplitudes are reported","With the iterative solver a breakup element that the acceptance rule accepts at one of the orders done is reported as the approximant of its smallest change, an element that is not accepted as whatever memory holds; all 15 orders are done unless the number of accepted elements of both kinds equals the number of elastic ones. With the direct solver all reported breakup amplitudes are zero. (A user expects elements of a solution with either solver.)")
O["C89"]=("Which results are reproducible on another machine","Two runs on the same input and permutation operator, on machines that differ in the signs LAPACK gives eigenvectors, in the contents of fresh memory and in the order of threads, give the same deuteron energy and the same list of energies; the direct solver gives the same elastic amplitudes whenever the equation has one solution; the iterative solver without breakup gives the same elastic amplitudes whenever the memory cell before the array of approximants has the same content; otherwise not: the first element can be 3/2 with one content and 1 with another. (A user expects the same amplitudes always.)")
O["C115"]=("A whole run leaves, for every channel and parameter set, files with the right elastic and breakup amplitudes, and splitting the work over jobs changes nothing","From the parameter file to the files of amplitudes: when a run with a chiral model and a parameter walk has come to its end, then for every three-nucleon channel and every parameter set of its work the file named after channel and set holds a table whose rows are in increasing order of the lab energy and bracket every requested energy within range, each row with the lab energy, c.m. energy and q bin of an on-shell point and the amplitudes (direct solver: of the unique solution; iterative solver: Pade approximants of the Neumann series) of the discretised Faddeev problem of that channel, with the permutation operator computed by the run or read from a file, and with the force whose constants are the numbers in that line of the parameter file. If breakup is requested, the second file named after channel and set holds, for every energy of the first file above the breakup threshold, every deuteron state and every continuum cell of pair and spectator bins that contains E_com, a row beginning with the energies and a column headed by the two partial waves with the amplitude from the deuteron to the wave packet of the cell (iterative solver: a Pade approximant of its own Neumann series; direct solver: always zero), followed by the boundaries of the cell in momentum. No other file of amplitudes is changed. The same holds without a walk for the potential object selected by name. Two such runs - everything in one run, or a job for one channel and some of the sets - on machines that differ in LAPACK's eigenvectors, fresh memory and thread order, one computing the permutation matrix and the other reading it, leave equal tables of elastic amplitudes for every channel and set that both do.")
for x in P:
    if x['id'] in O:
        x['title'],x['statement']=O[x['id']]
