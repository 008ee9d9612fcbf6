import Verif.Model.Channels2N
import Verif.Model.Layout
import Verif.Model.Kernel
import Verif.Model.Permutation
import Verif.Model.PadeSolve
/-! Where the program reads and writes its arrays: the allocated lengths and, for every place in the code that indexes an array, the set of
indices that place can produce (loop bounds and the tests around the access, all combinations allowed).  The places are those of the calculation of the
permutation matrix, of the bin boundaries of the scattering wave packets, of the resolvent and of the iterative solver.  Not listed: the
set-up of the free wave packets, the buffers of the sparse format of the permutation matrix (C15), the text output, and code that is switched off in
the source (tests, `keep_CPVC_in_mem`, `use_dense_format`).  Indices are exact integers; 32-bit overflow is C59 and C118. -/
namespace TicTac

/-- What the indices depend on: one 3N channel of a run.  `basis`: the states the two-nucleon channels are taken from; `states`: those of the 3N
channel; `plm n`: `gsl_sf_legendre_array_n(n)`; `permThreads`, `solverThreads`: threads of the permutation matrix (`P123_omp_num_threads`) and of the
solver (`omp_get_max_threads()`); `qidx`, `deut`: on-shell q bins and deuteron states; `p123Rows`, `p123Cols`: rows and columns of the stored elements of
the permutation matrix in column order; `numBU`, `offs`: number of breakup channels, `q_com_BU_idx_array`. -/
structure ArrCalc where
  p : PWParams
  basis : List PWState
  states : List PWState
  Nq : Nat
  Np : Nat
  Nphi : Nat
  Nx : Nat
  plm : Nat → Nat
  permThreads : Nat
  solverThreads : Nat
  qidx : List Nat
  deut : List Nat
  p123Rows : List Nat
  p123Cols : List Nat
  numBU : Nat
  offs : List Nat

namespace ArrCalc
variable (c : ArrCalc)
/-- `Nalpha`. -/
def Na : Nat := c.states.length
/-- `dense_dim`. -/
def D : Nat := c.Na * c.Nq * c.Np
/-- `num_q_com`. -/
def nq : Nat := c.qidx.length
/-- `num_deuteron_states`. -/
def nd : Nat := c.deut.length
/-- `two_jmax_SixJ`, make_permutation_matrix.cpp:394. -/
def jmax : Nat := (2 * lmaxOf c.states).toNat
/-- Size argument of the Legendre arrays, make_permutation_matrix.cpp:527-528. -/
def maxL : Nat := (maxQ (·.L) c.states).toNat
/-- Size argument of the Legendre arrays, make_permutation_matrix.cpp:527-528. -/
def maxl : Nat := (maxQ (·.l) c.states).toNat
/-- `P123_sparse_col_array_csc`, main.cpp:239-246. -/
def ptr : Nat → Nat := csPtr c.p123Cols
end ArrCalc

/-- The arrays.  `phi` stands for `phi_array`, `wphi_array`, `sin_phi_array`, `cos_phi_array`; `rows` for the eight row arrays of the solver; `element`
for the four arrays with one entry per on-shell element; `threadCols` for the three column buffers of the threads. -/
inductive Arr where
  | qWP | pWP | phi | overlap | node | sixj | atilde | cg | plm1 | plm2 | plm3 | prefacL | prefacl | gtilde | permThread
  | e (coupled : Bool) | eigen (coupled : Bool)
  | G | rows | indexing | coeff | approx | element | cols | threadCols | counter | pvcCol | ptrTab | block (coupled : Bool) | U | qcom | deuteron
  | p123 | p123ptr | coeffBU | approxBU | elementBU
deriving DecidableEq

/-- Number of elements allocated. -/
def arrLen (c : ArrCalc) : Arr → Int
  | .qWP => c.Nq + 1                                                 -- make_wp_states.cpp:143
  | .pWP => c.Np + 1                                                 -- make_wp_states.cpp:139
  | .phi => (c.Nq * c.Np * c.Nphi : Nat)                             -- make_permutation_matrix.cpp:1334-1335, 516-517
  | .overlap => (c.Nq * c.Nq * c.Np * c.Np : Nat)                    -- make_permutation_matrix.cpp:1337
  | .node => c.Nx                                                    -- make_permutation_matrix.cpp:1333
  | .sixj => ((c.jmax + 1) ^ 6 : Nat)                                -- make_permutation_matrix.cpp:409, 414
  | .atilde => (c.Na * c.Na * (LmaxOf c.states + 1) : Nat)           -- make_permutation_matrix.cpp:444-446
  | .cg => (((c.jmax + 1) ^ 4 * (2 * c.jmax + 1) : Nat) : Int)       -- make_permutation_matrix.cpp:473-475
  | .plm1 => (c.plm c.maxl * c.Nx : Nat)                             -- make_permutation_matrix.cpp:536
  | .plm2 => (c.plm c.maxL * c.Np * c.Nq * c.Nphi * c.Nx : Nat)      -- make_permutation_matrix.cpp:537
  | .plm3 => (c.plm c.maxl * c.Np * c.Nq * c.Nphi * c.Nx : Nat)      -- make_permutation_matrix.cpp:538
  | .prefacL => c.plm c.maxL                                         -- make_permutation_matrix.cpp:601
  | .prefacl => c.plm c.maxl                                         -- make_permutation_matrix.cpp:602
  | .gtilde => (c.Nphi * c.Nx : Nat)                                 -- make_permutation_matrix.cpp:653, 729
  | .permThread => c.permThreads                                     -- make_permutation_matrix.cpp:636-639, 687
  | .e false => (c.Np + 1) * numUnco c.p                             -- main.cpp:324
  | .e true => 2 * (c.Np + 1) * numCoup c.p                          -- main.cpp:325
  | .eigen false => c.Np                                             -- make_swp_states.cpp:423
  | .eigen true => 2 * c.Np                                          -- make_swp_states.cpp:423
  | .G => (c.D * c.nq : Nat)                                         -- main.cpp:387
  | .rows => (c.D * (c.nd * c.nq) : Nat)                             -- solve_faddeev.cpp:503-510
  | .indexing => (c.nd * c.nq : Nat)                                 -- solve_faddeev.cpp:525
  | .coeff => (29 * (c.nd * c.nd * c.nq) : Nat)                      -- solve_faddeev.cpp:485-488
  | .approx => (c.nd * c.nd * c.nq * 15 : Nat)                       -- solve_faddeev.cpp:532
  | .element => (c.nd * c.nd * c.nq : Nat)                           -- solve_faddeev.cpp:492-493, 533-534
  | .cols => (c.D * colsPerChunk c.D : Nat)                          -- solve_faddeev.cpp:554
  | .threadCols => (c.D * c.solverThreads : Nat)                     -- solve_faddeev.cpp:558-560
  | .counter => 100                                                  -- solve_faddeev.cpp:930
  | .pvcCol => (c.Na * c.Nq * c.Np : Nat)                            -- solve_faddeev.cpp:64, 202
  | .ptrTab => (c.Na * c.Na : Nat)                                   -- solve_faddeev.cpp:1482, 1493
  | .block false => c.Np * c.Np * numUnco c.p                        -- solve_faddeev.cpp:1616, 1812
  | .block true => c.Np * c.Np * 4 * numCoup c.p                     -- solve_faddeev.cpp:1617, 1813
  | .U => (c.nq * c.nd * c.nd : Nat)                                 -- main.cpp:412-414
  | .qcom => c.nq                                                    -- run_organizer.cpp, chn_os_indexing
  | .deuteron => c.nd                                                -- run_organizer.cpp, deuteron_idx_arrays
  | .p123 => c.p123Rows.length                                       -- the three arrays of stored elements
  | .p123ptr => c.D + 1                                              -- main.cpp:239
  | .coeffBU => (29 * (c.nd * c.numBU) : Nat)                        -- solve_faddeev.cpp:567-568
  | .approxBU => (c.nd * c.numBU * 15 : Nat)                         -- solve_faddeev.cpp:569
  | .elementBU => (c.nd * c.numBU : Nat)                             -- solve_faddeev.cpp:570-571

/-- Iterations thread `t` of `T` executes of a loop of `n` iterations under `#pragma omp for` without a schedule clause, as GCC's runtime shares them
out (`schedule(static)`): `n/T`, and one more for the first `n % T` threads. -/
def staticShare (T n t : Nat) : Nat := n / T + if t < n % T then 1 else 0

/-- Threads of a parallel region after `omp_set_num_threads(n)`, and what `omp_get_max_threads()` returns then: GCC's runtime takes 0 for 1. -/
def ompTeam (n : Nat) : Nat := if n = 0 then 1 else n

/-- Calls that change the number of threads: `omp_set_num_threads(n)` (make_permutation_matrix.cpp:691) and
`omp_set_num_threads(omp_get_max_threads())` (888, "changes back the maximal number of threads"). -/
inductive OmpCall where
  | set (n : Nat)
  | setMax

/-- `omp_get_max_threads()` after the calls, from its value `m` at the start. -/
def maxThreads (m : Nat) : List OmpCall → Nat
  | [] => m
  | .set n :: cs => maxThreads (ompTeam n) cs
  | .setMax :: cs => maxThreads (ompTeam m) cs

/-- Number of threads the solver finds (solve_faddeev.cpp:557) in the last of several 3N channels; `computed` says for each channel up to then whether its
permutation matrix was computed (rather than read), main.cpp:230-265, make_permutation_matrix.cpp:691, 888. -/
def solverMaxThreads (m permThreads : Nat) (computed : List Bool) : Nat :=
  maxThreads m (computed.flatMap fun b => if b then [.set permThreads, .setMax] else [])

/-- `Access c a i`: some place in the code reads or writes element `i` of array `a`. -/
inductive Access (c : ArrCalc) : Arr → Int → Prop
  -- Bin boundaries: make_permutation_matrix.cpp:236-244, make_resolvent.cpp:177-178 and all other loops over bins.
  | qLower (q : Nat) (h : q < c.Nq) : Access c .qWP q
  | qUpper (q : Nat) (h : q < c.Nq) : Access c .qWP (q + 1 : Nat)
  | pLower (p : Nat) (h : p < c.Np) : Access c .pWP p
  | pUpper (p : Nat) (h : p < c.Np) : Access c .pWP (p + 1 : Nat)
  -- make_permutation_matrix.cpp:179-180, 516-521, 563-570, 753-754.
  | phi (q p f : Nat) (hq : q < c.Nq) (hp : p < c.Np) (hf : f < c.Nphi) : Access c .phi ((q * c.Np + p) * c.Nphi + f : Nat)
  -- make_permutation_matrix.cpp:247, 801.
  | overlap (q' p' q p : Nat) (h1 : q' < c.Nq) (h2 : p' < c.Np) (h3 : q < c.Nq) (h4 : p < c.Np) :
      Access c .overlap (q' * (c.Np * c.Nq * c.Np) + p' * (c.Nq * c.Np) + q * c.Np + p : Nat)
  | node (x : Nat) (h : x < c.Nx) : Access c .node x
  -- make_permutation_matrix.cpp:417-430.
  | sixFill (a b d e f g : Nat) (h1 : a ≤ c.jmax) (h2 : b ≤ c.jmax) (h3 : d ≤ c.jmax) (h4 : e ≤ c.jmax) (h5 : f ≤ c.jmax) (h6 : g ≤ c.jmax) :
      Access c .sixj (sixjIdx c.jmax a b d e f g)
  -- auxiliary.cpp:878 (`two_Stotal` is 1 or 3) and 879, index auxiliary.cpp:149-158.
  | sixSpin (s s' : PWState) (hs : s ∈ c.states) (hs' : s' ∈ c.states) (twoS : Nat) (h : twoS = 1 ∨ twoS = 3) :
      Access c .sixj (sixjIdx c.jmax 1 1 (2 * s.S).toNat 1 twoS (2 * s'.S).toNat)
  | sixIso (s s' : PWState) (hs : s ∈ c.states) (hs' : s' ∈ c.states) :
      Access c .sixj (sixjIdx c.jmax 1 1 (2 * s.T).toNat 1 s.twoT3.toNat (2 * s'.T).toNat)
  -- make_permutation_matrix.cpp:450-458.
  | atildeFill (a a' L : Nat) (ha : a < c.Na) (ha' : a' < c.Na) (hL : L ≤ LmaxOf c.states) :
      Access c .atilde (a * c.Na * (LmaxOf c.states + 1) + a' * (LmaxOf c.states + 1) + L : Nat)
  -- make_permutation_matrix.cpp:749 with auxiliary.cpp:1000-1001.
  | atildeRead (a a' : Nat) (s s' : PWState) (ha : c.states[a]? = some s) (ha' : c.states[a']? = some s') (twoJ L : Int)
      (hL : L ∈ ltotalRange twoJ s.L s.l s'.L s'.l) :
      Access c .atilde (a * c.Na * (LmaxOf c.states + 1) + a' * (LmaxOf c.states + 1) + L)
  -- make_permutation_matrix.cpp:481-494.
  | cgFill (t : Int × Int × Int × Int × Int) (h : t ∈ cgTuples c.jmax) : Access c .cg (cgIdx c.jmax t.1 t.2.1 t.2.2.1 t.2.2.2.1 t.2.2.2.2)
  -- auxiliary.cpp:1022.
  | cgFirst (s s' : PWState) (hs : s ∈ c.states) (hs' : s' ∈ c.states) (twoJ L M : Int) (hL : L ∈ ltotalRange twoJ s.L s.l s'.L s'.l)
      (hM : M ∈ forRange (-(min s.l L)) (min s.l L) 1) : Access c .cg (cgIdx c.jmax (2 * s.L) (2 * s.l) (2 * L) 0 (2 * M))
  -- auxiliary.cpp:1029-1046.
  | cgSecond (s s' : PWState) (hs : s ∈ c.states) (hs' : s' ∈ c.states) (twoJ L M M' : Int) (hL : L ∈ ltotalRange twoJ s.L s.l s'.L s'.l)
      (hM : M ∈ forRange (-(min s.l L)) (min s.l L) 1) (hM' : M' ∈ forRange (-s'.L) s'.L 1) (hd : ((M - M').natAbs : Int) ≤ s'.l) :
      Access c .cg (cgIdx c.jmax (2 * s'.L) (2 * s'.l) (2 * L) (2 * M') (2 * M - 2 * M'))
  -- make_permutation_matrix.cpp:548-552: `gsl_sf_legendre_array_e` writes `gsl_sf_legendre_array_n` elements.
  | plm1Fill (x o : Nat) (hx : x < c.Nx) (ho : o < c.plm c.maxl) : Access c .plm1 (x * c.plm c.maxl + o : Nat)
  -- auxiliary.cpp:1006-1007.
  | plm1Read (x : Nat) (hx : x < c.Nx) (s s' : PWState) (hs : s ∈ c.states) (hs' : s' ∈ c.states) (twoJ L M : Int)
      (hL : L ∈ ltotalRange twoJ s.L s.l s'.L s'.l) (hM : M ∈ forRange (-(min s.l L)) (min s.l L) 1) :
      Access c .plm1 (x * c.plm c.maxl + gslIdx s.l.toNat M.natAbs : Nat)
  -- make_permutation_matrix.cpp:585-588.
  | plm2Fill (q p f x o : Nat) (hq : q < c.Nq) (hp : p < c.Np) (hf : f < c.Nphi) (hx : x < c.Nx) (ho : o < c.plm c.maxL) :
      Access c .plm2 ((q * c.Np * c.Nphi * c.Nx + p * c.Nphi * c.Nx + f * c.Nx + x) * c.plm c.maxL + o : Nat)
  | plm3Fill (q p f x o : Nat) (hq : q < c.Nq) (hp : p < c.Np) (hf : f < c.Nphi) (hx : x < c.Nx) (ho : o < c.plm c.maxl) :
      Access c .plm3 ((q * c.Np * c.Nphi * c.Nx + p * c.Nphi * c.Nx + f * c.Nx + x) * c.plm c.maxl + o : Nat)
  -- make_permutation_matrix.cpp:759-760 with auxiliary.cpp:1028-1040.
  | plm2Read (q p f x : Nat) (hq : q < c.Nq) (hp : p < c.Np) (hf : f < c.Nphi) (hx : x < c.Nx) (s' : PWState) (hs' : s' ∈ c.states) (M' : Int)
      (hM' : M' ∈ forRange (-s'.L) s'.L 1) :
      Access c .plm2 ((q * c.Np * c.Nphi * c.Nx + p * c.Nphi * c.Nx) * c.plm c.maxL + (f * c.Nx + x) * c.plm c.maxL + gslIdx s'.L.toNat M'.natAbs : Nat)
  | plm3Read (q p f x : Nat) (hq : q < c.Nq) (hp : p < c.Np) (hf : f < c.Nphi) (hx : x < c.Nx) (s' : PWState) (hs' : s' ∈ c.states) (Md : Int)
      (hd : (Md.natAbs : Int) ≤ s'.l) :
      Access c .plm3 ((q * c.Np * c.Nphi * c.Nx + p * c.Nphi * c.Nx) * c.plm c.maxl + (f * c.Nx + x) * c.plm c.maxl + gslIdx s'.l.toNat Md.natAbs : Nat)
  -- make_permutation_matrix.cpp:603-614.
  | prefacL (l m : Nat) (hl : l < c.maxL + 1) (hm : m < l + 1) : Access c .prefacL (gslIdx l m)
  | prefacl (l m : Nat) (hl : l < c.maxl + 1) (hm : m < l + 1) : Access c .prefacl (gslIdx l m)
  -- auxiliary.cpp:1070-1120 (fill), 740-860 (read).
  | gtilde (f x : Nat) (hf : f < c.Nphi) (hx : x < c.Nx) : Access c .gtilde (f * c.Nx + x : Nat)
  -- make_permutation_matrix.cpp:641-648, 687-690, 741-743: the initialising loops and the progress report.
  | permThread (t : Nat) (h : t < c.permThreads) : Access c .permThread t
  -- make_permutation_matrix.cpp:824-883: each thread of the team started by 691-692.
  | permTeam (t : Nat) (h : t < ompTeam c.permThreads) : Access c .permThread t
  -- make_swp_states.cpp:146-178 on the part of the array set by make_swp_states.cpp:387, 409 (`chn_idx` is that of a pair `r`, `d` of states).
  | eFirst (r d : PWState) (hr : r ∈ c.basis) (hd : d ∈ c.basis) (n : Int) (b : Bool) (ok : swpPairOK c.p r d = true) (h : pairSlot c.p r d = some (b, n)) :
      Access c (.e b) (n * (if b then 2 * ((c.Np : Int) + 1) else (c.Np : Int) + 1))
  | eFirst2 (r d : PWState) (hr : r ∈ c.basis) (hd : d ∈ c.basis) (n : Int) (ok : swpPairOK c.p r d = true) (h : pairSlot c.p r d = some (true, n)) :
      Access c (.e true) (n * (2 * (c.Np + 1)) + (c.Np + 1))
  | eMiddle (r d : PWState) (hr : r ∈ c.basis) (hd : d ∈ c.basis) (n : Int) (b : Bool) (ok : swpPairOK c.p r d = true) (h : pairSlot c.p r d = some (b, n))
      (i : Nat) (hi : i + 1 < c.Np) : Access c (.e b) (n * (if b then 2 * ((c.Np : Int) + 1) else (c.Np : Int) + 1) + (i + 1))
  | eMiddle2 (r d : PWState) (hr : r ∈ c.basis) (hd : d ∈ c.basis) (n : Int) (ok : swpPairOK c.p r d = true) (h : pairSlot c.p r d = some (true, n))
      (i : Nat) (hi : i + 1 < c.Np) : Access c (.e true) (n * (2 * (c.Np + 1)) + (i + 1 + c.Np + 1))
  | eLast (r d : PWState) (hr : r ∈ c.basis) (hd : d ∈ c.basis) (n : Int) (b : Bool) (ok : swpPairOK c.p r d = true) (h : pairSlot c.p r d = some (b, n))
      (k : Int) (hk : k = c.Np ∨ k = (c.Np : Int) - 1 ∨ k = (c.Np : Int) - 2) : Access c (.e b) (n * (if b then 2 * ((c.Np : Int) + 1) else (c.Np : Int) + 1) + k)
  | eLast2 (r d : PWState) (hr : r ∈ c.basis) (hd : d ∈ c.basis) (n : Int) (ok : swpPairOK c.p r d = true) (h : pairSlot c.p r d = some (true, n))
      (k : Int) (hk : k = 2 * (c.Np : Int) + 1 ∨ k = 2 * (c.Np : Int) ∨ k = 2 * (c.Np : Int) - 1) : Access c (.e true) (n * (2 * (c.Np + 1)) + k)
  | eBound (r d : PWState) (hr : r ∈ c.basis) (hd : d ∈ c.basis) (n : Int) (b : Bool) (ok : swpPairOK c.p r d = true) (h : pairSlot c.p r d = some (b, n))
      (k : Int) (hk : k = 0 ∨ k = 1) : Access c (.e b) (n * (if b then 2 * ((c.Np : Int) + 1) else (c.Np : Int) + 1) + k)
  -- The eigenvalues of a channel: make_swp_states.cpp:100-128, 152-177.
  | eigen (b : Bool) (i : Nat) (hi : i < c.Np) : Access c (.eigen b) i
  | eigen2 (i : Nat) (hi : i < c.Np) : Access c (.eigen true) (i + c.Np)
  | eigenNext (b : Bool) (i : Nat) (hi : i + 1 < c.Np) : Access c (.eigen b) (i + 1)
  | eigenNext2 (i : Nat) (hi : i + 1 < c.Np) : Access c (.eigen true) (i + 1 + c.Np)
  -- make_resolvent.cpp:131-155, 162-166.
  | eResolvent (s : PWState) (hs : s ∈ c.states) (n : Int) (b : Bool) (h : slotOf c.p s = some (b, n)) (second : Bool) (hsec : second = true → b = true)
      (i : Nat) (hi : i < c.Np) (k : Int) (hk : k = 0 ∨ k = 1) :
      Access c (.e b) (n * (if b then 2 * ((c.Np : Int) + 1) else (c.Np : Int) + 1) + (if second then (c.Np : Int) + 1 else 0) + (i + k))
  -- main.cpp:392, make_resolvent.cpp:201-202; solve_faddeev.cpp:965-966.
  | gWrite (j a q p : Nat) (hj : j < c.nq) (ha : a < c.Na) (hq : q < c.Nq) (hp : p < c.Np) :
      Access c .G (j * c.D + (a * c.Nq * c.Np + q * c.Np + p) : Nat)
  | gRead (j i : Nat) (hj : j < c.nq) (hi : i < c.D) : Access c .G (j * c.D + i : Nat)
  -- solve_faddeev.cpp:258-262, 513-522, 963-968, 1014-1018, 1112-1119, 1130-1133.
  | rowsFull (d j i : Nat) (hd : d < c.nd) (hj : j < c.nq) (hi : i < c.D) : Access c .rows ((d * c.nq + j) * c.D + i : Nat)
  | rowsCompact (r i : Nat) (hr : r < c.nd * c.nq) (hi : i < c.D) : Access c .rows (r * c.D + i : Nat)
  -- solve_faddeev.cpp:851, 1158.
  | rowsOnShell (d d' j q a : Nat) (hd : d < c.nd) (hj : c.qidx[j]? = some q) (ha : c.deut[d']? = some a) :
      Access c .rows ((d * c.nq + j) * c.D + (a * c.Nq * c.Np + q * c.Np + 0) : Nat)
  -- solve_faddeev.cpp:1078-1087: `cblas_dgemm` writes `num_non_conv_rows` rows of `cols_in_chunk` elements with row distance `dense_dim`.
  | rowsProduct (r i k : Nat) (hr : r < c.nd * c.nq) (hi : i < numChunks c.D) (hk : k < chunkEnd c.D i - chunkStart c.D i) :
      Access c .rows (chunkStart c.D i + (r * c.D + k) : Nat)
  -- solve_faddeev.cpp:1019, 1113.
  | indexing (r : Nat) (hr : r < c.nd * c.nq) : Access c .indexing r
  -- solve_faddeev.cpp:855, 1161 (`n ≤ 2·NM_max`), 1223 with 11-180 of pade_approximant (`a[0..2·NM]`).
  | coeff (d d' j n : Nat) (hd : d < c.nd) (hd' : d' < c.nd) (hj : j < c.nq) (hn : n ≤ 28) :
      Access c .coeff ((d * c.nd * c.nq + d' * c.nq + j) * 29 + n : Nat)
  -- solve_faddeev.cpp:1225, 1234, 1259, 1382.
  | approx (d d' j n : Nat) (hd : d < c.nd) (hd' : d' < c.nd) (hj : j < c.nq) (hn : n ≤ 14) :
      Access c .approx ((d * c.nd * c.nq + d' * c.nq + j) * 15 + n : Nat)
  -- solve_faddeev.cpp:1237, 1246: the approximant before `NM_prev`, `NM`.
  | approxBefore (d d' j n : Nat) (hd : d < c.nd) (hd' : d' < c.nd) (hj : j < c.nq) (hn : n ≤ 14) :
      Access c .approx (((d * c.nd * c.nq + d' * c.nq + j) * 15 + n : Nat) - 1)
  -- solve_faddeev.cpp:562-564, 827-858, 988-991, 1153-1169, 1218, 1293, 1380.
  | element (d d' j : Nat) (hd : d < c.nd) (hd' : d' < c.nd) (hj : j < c.nq) : Access c .element (d * c.nd * c.nq + d' * c.nq + j : Nat)
  -- solve_faddeev.cpp:1037-1039.
  | colsReset (i : Nat) (hi : i < c.D * colsPerChunk c.D) : Access c .cols i
  -- solve_faddeev.cpp:1045-1054 with 30-41 and 155-160 (the column itself).
  | cols (i col a q p : Nat) (hi : i < numChunks c.D) (h1 : chunkStart c.D i ≤ col) (h2 : col < chunkEnd c.D i) (ha : a < c.Na) (hq : q < c.Nq) (hp : p < c.Np) :
      Access c .cols ((col - chunkStart c.D i) * c.D + (a * c.Nq * c.Np + q * c.Np + p) : Nat)
  -- solve_faddeev.cpp:1041-1045.
  | threadCols (t i : Nat) (ht : t < c.solverThreads) (hi : i < c.D) : Access c .threadCols (t * c.D + i : Nat)
  -- solve_faddeev.cpp:931-933.
  | counterInit (i : Nat) (hi : i < 100) : Access c .counter i
  -- solve_faddeev.cpp:1066: each thread that executes a column of a chunk.
  | counterAdd (i t : Nat) (hi : i < numChunks c.D) (ht : t < c.solverThreads) (hs : 0 < staticShare c.solverThreads (chunkEnd c.D i - chunkStart c.D i) t) :
      Access c .counter t
  -- solve_faddeev.cpp:66-68, 205-208.
  | pvcReset (i : Nat) (hi : i < c.Na * c.Nq * c.Np) : Access c .pvcCol i
  -- solve_faddeev.cpp:28-41.
  | p123ptr (a q p k : Nat) (ha : a < c.Na) (hq : q < c.Nq) (hp : p < c.Np) (hk : k = 0 ∨ k = 1) :
      Access c .p123ptr (a * c.Np * c.Nq + q * c.Np + p + k : Nat)
  | p123 (a q p k : Nat) (ha : a < c.Na) (hq : q < c.Nq) (hp : p < c.Np) (h1 : c.ptr (a * c.Np * c.Nq + q * c.Np + p) ≤ k)
      (h2 : k < c.ptr (a * c.Np * c.Nq + q * c.Np + p + 1)) : Access c .p123 k
  | pvcAdd (a q p k row : Nat) (ha : a < c.Na) (hq : q < c.Nq) (hp : p < c.Np) (h1 : c.ptr (a * c.Np * c.Nq + q * c.Np + p) ≤ k)
      (h2 : k < c.ptr (a * c.Np * c.Nq + q * c.Np + p + 1)) (hrow : c.p123Rows[k]? = some row) : Access c .pvcCol row
  -- solve_faddeev.cpp:145-148, 247-250.
  | pvcRead (a q p : Nat) (ha : a < c.Na) (hq : q < c.Nq) (hp : p < c.Np) : Access c .pvcCol (a * c.Nq * c.Np + (q * c.Np + p) : Nat)
  -- solve_faddeev.cpp:19, 141, 1746-1747, 1937-1938.
  | ptrTab (a a' : Nat) (ha : a < c.Na) (ha' : a' < c.Na) : Access c .ptrTab (a * c.Na + a' : Nat)
  -- solve_faddeev.cpp:26, 157, 250 through the pointers of 1720-1735, 1911-1926.
  | blockRead (r d : PWState) (hr : r ∈ c.states) (hd : d ∈ c.states) (b : Bool) (n : Int) (blk : Nat) (h : kernelPtr c.p r d = some (some (b, n, blk)))
      (i j : Nat) (hi : i < c.Np) (hj : j < c.Np) :
      Access c (.block b) (if b then n * 4 * c.Np * c.Np + blk * c.Np * c.Np + (i * c.Np + j) else n * c.Np * c.Np + (i * c.Np + j))
  -- solve_faddeev.cpp:1613-1662, 1815-1852: the loops over channels that fill the blocks.
  | blockFillUnco (n : Int) (h0 : 0 ≤ n) (h1 : n < numUnco c.p) (i : Nat) (hi : i < c.Np * c.Np) : Access c (.block false) (n * c.Np * c.Np + i)
  | blockFillCoup (n : Int) (h0 : 0 ≤ n) (h1 : n < numCoup c.p) (i : Nat) (hi : i < 4 * c.Np * c.Np) : Access c (.block true) (n * 4 * c.Np * c.Np + i)
  -- solve_faddeev.cpp:1382, 424; disk_io_routines.cpp:893.
  | U (d d' j : Nat) (hd : d < c.nd) (hd' : d' < c.nd) (hj : j < c.nq) : Access c .U (d * c.nd * c.nq + d' * c.nq + j : Nat)
  -- solve_faddeev.cpp:819-822, 1143-1146.
  | qcom (j : Nat) (hj : j < c.nq) : Access c .qcom j
  | deuteron (d : Nat) (hd : d < c.nd) : Access c .deuteron d
  -- Breakup: solve_faddeev.cpp:870-888, 996-1002, 1176-1201, 1302-1365, 1389-1404 (offsets `offs[j]`, `offs[j+1]`).
  | coeffBU (d j lo hi b n : Nat) (hd : d < c.nd) (h1 : c.offs[j]? = some lo) (h2 : c.offs[j + 1]? = some hi) (hb : lo ≤ b) (hb' : b < hi) (hn : n ≤ 28) :
      Access c .coeffBU ((d * c.numBU + b) * 29 + n : Nat)
  | approxBU (d j lo hi b n : Nat) (hd : d < c.nd) (h1 : c.offs[j]? = some lo) (h2 : c.offs[j + 1]? = some hi) (hb : lo ≤ b) (hb' : b < hi) (hn : n ≤ 14) :
      Access c .approxBU ((d * c.numBU + b) * 15 + n : Nat)
  | approxBeforeBU (d j lo hi b n : Nat) (hd : d < c.nd) (h1 : c.offs[j]? = some lo) (h2 : c.offs[j + 1]? = some hi) (hb : lo ≤ b) (hb' : b < hi) (hn : n ≤ 14) :
      Access c .approxBU (((d * c.numBU + b) * 15 + n : Nat) - 1)
  | elementBU (d j lo hi b : Nat) (hd : d < c.nd) (h1 : c.offs[j]? = some lo) (h2 : c.offs[j + 1]? = some hi) (hb : lo ≤ b) (hb' : b < hi) :
      Access c .elementBU (d * c.numBU + b : Nat)

end TicTac
