import Verif.Model.Channels2N
import Verif.Model.Layout
import Verif.Model.Tables
import Verif.Model.Swp
import Verif.Model.Sparse
import Mathlib.Algebra.BigOperators.Group.Finset.Basic
import Mathlib.Data.Real.Basic
/-! Model of solve_faddeev.cpp, part 1: pointer tables for Cᵀ and V·C (solve_faddeev.cpp:1588-1927), the kernel columns and rows
(solve_faddeev.cpp:4-269).  `double` is ℝ.  A two-dimensional pointer array `X[r*Nalpha + c]` is a function of `r` and `c`; a
pointer into a channel's buffer is (coupled?, channel, block), i.e. the address `channel*dim*dim + block*Np*Np`. -/
noncomputable section
namespace TicTac

/-- `simple_transpose_matrix_routine`, matrix_routines.cpp:103-117: fill a temporary array, copy it back. -/
def transposeFlat (dim : Nat) (f : Nat → ℝ) : Nat → ℝ :=
  writeAll f ((List.range dim).flatMap fun row => (List.range dim).map fun col => (col * dim + row, f (row * dim + col)))

/-- `dot_MM(A,B,C,n,n,n)`, matrix_routines.cpp:35-37: `cblas_dgemm` by its contract (row-major product, trusted). -/
def dotMM (n : Nat) (A B : Nat → ℝ) : Nat → ℝ := fun i => ∑ k ∈ Finset.range n, A (i / n * n + k) * B (k * n + i % n)

/-- `restructure_coupled_VC_product`, solve_faddeev.cpp:1754-1779. -/
def restructure (N : Nat) (f : Nat → ℝ) : Nat → ℝ :=
  writeAll f ((List.range 2).flatMap fun cb => (List.range 2).flatMap fun rb => (List.range N).flatMap fun col => (List.range N).map fun row =>
    (cb * 2 * N * N + rb * N * N + (col * N + row), f ((col + N * cb) * 2 * N + (row + N * rb))))

/-- Sub-array of one channel in a flat array of channel matrices. -/
def chanSub (N : Nat) (X : Bool → Int → ℝ) (b : Bool) (n : Int) : Nat → ℝ := fun i => X b (n * (chnDim N b * chnDim N b : Nat) + i)

/-- Content of the buffers `CT_unco_array`/`CT_coup_array` for channel `n`, solve_faddeev.cpp:1613-1662. -/
def ctSub (N : Nat) (C : Bool → Int → ℝ) (b : Bool) (n : Int) : Nat → ℝ :=
  if b then restructure N (transposeFlat (2 * N) (chanSub N C true n)) else transposeFlat N (chanSub N C false n)

/-- Content of the buffers `VC_unco_array`/`VC_coup_array` for channel `n`, solve_faddeev.cpp:1817-1852. -/
def vcSub (N : Nat) (V C : Bool → Int → ℝ) (b : Bool) (n : Int) : Nat → ℝ :=
  if b then restructure N (transposeFlat (2 * N) (dotMM (2 * N) (chanSub N V true n) (chanSub N C true n)))
  else transposeFlat N (dotMM N (chanSub N V false n) (chanSub N C false n))

/-- The channel loops fill channels `0 … num-1` only (solve_faddeev.cpp:1613, 1637, 1818, 1834); everything else is not part of the
buffer and reads as `junk`. -/
def channelsOnly (p : PWParams) (sub junk : Bool → Int → Nat → ℝ) (b : Bool) (n : Int) : Nat → ℝ :=
  if 0 ≤ n ∧ n < (if b then numCoup p else numUnco p) then sub b n else junk b n

/-- The test whether two states interact, solve_faddeev.cpp:1690-1699, 1881-1890. -/
def kernelPair (p : PWParams) (r c : PWState) : Bool := potPairOK p r c && r.l == c.l && r.twoj == c.twoj

/-- Pointer for a pair of states, solve_faddeev.cpp:1699-1743, 1890-1934 (the two functions contain the same code): outer `none` =
`raise_error`, inner `none` = NULL. -/
def kernelPtr (p : PWParams) (r c : PWState) : Option (Option (Bool × Int × Nat)) :=
  if kernelPair p r c then
    if pairViaL p r c = true ∧ coupledViaT p r = true then none
    else if pairViaL p r c = true ∨ coupledViaT p r = true then
      match unique2NIdx p r.L r.S r.J r.T true with
      | none => none
      | some n =>
        if (pairViaL p r c = true ∧ r.L < c.L) ∨ (coupledViaT p r = true ∧ r.twoT3 < c.twoT3) then some (some (true, n, 1))
        else if (pairViaL p r c = true ∧ r.L > c.L) ∨ (coupledViaT p r = true ∧ r.twoT3 > c.twoT3) then some (some (true, n, 2))
        else if (pairViaL p r c = true ∧ r.L < c.J) ∨ (coupledViaT p r = true ∧ r.twoT3 = 1) then some (some (true, n, 0))
        else if (pairViaL p r c = true ∧ r.L > c.J) ∨ (coupledViaT p r = true ∧ r.twoT3 = 3) then some (some (true, n, 3))
        else none
    else (unique2NIdx p r.L r.S r.J r.T false).map fun n => some (false, n, 0)
  else some none

/-- A table of pointers to row- or column-major `Np × Np` blocks. -/
abbrev PtrTab := Nat → Nat → Option (Nat → ℝ)

/-- Dereferenced pointer table: all pairs of states, solve_faddeev.cpp:1665-1750, 1856-1941. -/
def kernelTab (p : PWParams) (N : Nat) (sub : Bool → Int → Nat → ℝ) (states : List PWState) : Option PtrTab :=
  if ∃ r ∈ states, ∃ c ∈ states, kernelPtr p r c = none then none
  else some fun r c => match states[r]?, states[c]? with
    | some r, some c => match kernelPtr p r c with
      | some (some (b, n, blk)) => some fun i => sub b n (blk * N * N + i)
      | _ => none
    | _, _ => none

/-- `x[i] += v` for all pairs, in order. -/
def addAll (f : Nat → ℝ) (ws : List (Nat × ℝ)) : Nat → ℝ := ws.foldl (fun f w => Function.update f w.1 (f w.1 + w.2)) f

/-- `calculate_PVC_col`, solve_faddeev.cpp:4-48. The sparse matrix is in CSC format: `ents` are the stored elements in order
(only row and value are read), `ptr` the column pointers. -/
def pvcCol (Nalpha Nq Np : Nat) (VC : PtrTab) (ents : List (Entry ℝ)) (ptr : Nat → Nat) (f : Nat → ℝ) (ac pc qc : Nat) : Nat → ℝ :=
  addAll f ((List.range Nalpha).flatMap fun aj => match VC ac aj with
    | none => []
    | some sub => (List.range Np).flatMap fun pj =>
      let v := sub (pc * Np + pj)
      let j := aj * Np * Nq + qc * Np + pj
      ((ents.drop (ptr j)).take (ptr (j + 1) - ptr j)).map fun e => (e.row, 2 * e.val * v))

open Classical in
/-- `calculate_CPVC_col`, solve_faddeev.cpp:50-181. -/
def cpvcCol (Nalpha Nq Np : Nat) (CT VC : PtrTab) (ents : List (Entry ℝ)) (ptr : Nat → Nat) (f : Nat → ℝ) (ac pc qc : Nat) : Nat → ℝ :=
  let pvc := pvcCol Nalpha Nq Np VC ents ptr (fun _ => 0) ac pc qc
  addAll f ((List.range Nalpha).flatMap fun ar => (List.range Nalpha).flatMap fun ai => match CT ar ai with
    | none => []
    | some sub => (List.range Nq).flatMap fun qr => (List.range Np).flatMap fun pi =>
      let x := pvc (ai * Nq * Np + (qr * Np + pi))
      if x = 0 then [] else (List.range Np).map fun pr => (ar * Nq * Np + qr * Np + pr, x * sub (pr * Np + pi)))

/-- `inner_product_CPVC` of one on-shell row, solve_faddeev.cpp:240-262. -/
def rowInner (Nalpha Nq Np : Nat) (CT : PtrTab) (pvc : Nat → ℝ) (ar qr : Nat) : ℝ :=
  (List.range Nalpha).foldl (fun s ai => match CT ar ai with
    | none => s
    | some sub => (List.range Np).foldl (fun s pi => s + sub (0 * Np + pi) * pvc (ai * Nq * Np + qr * Np + pi)) s) 0

/-- Writes of one iteration of the parallel loop of `calculate_all_CPVC_rows` (one `idx_alpha_c`), solve_faddeev.cpp:209-267. -/
def rowWrites (Nalpha Nq Np : Nat) (CT VC : PtrTab) (ents : List (Entry ℝ)) (ptr : Nat → Nat) (qidx deut : List Nat) (ac : Nat) : List (Nat × ℝ) :=
  (List.range Nq).flatMap fun qc => (List.range Np).flatMap fun pc =>
    let pvc := pvcCol Nalpha Nq Np VC ents ptr (fun _ => 0) ac pc qc
    deut.zipIdx.flatMap fun di => qidx.zipIdx.map fun qj =>
      ((di.2 * qidx.length + qj.2) * (Nalpha * Nq * Np) + (ac * Nq * Np + qc * Np + pc), rowInner Nalpha Nq Np CT pvc di.1 qj.1)

/-- `calculate_all_CPVC_rows`, solve_faddeev.cpp:183-269, for an order `sched` in which the threads' iterations take effect (the loop
is work-shared over `idx_alpha_c`, the PVC column is private to a thread). -/
def allRows (Nalpha Nq Np : Nat) (CT VC : PtrTab) (ents : List (Entry ℝ)) (ptr : Nat → Nat) (qidx deut : List Nat) (sched : List Nat)
    (f : Nat → ℝ) : Nat → ℝ :=
  writeAll f (sched.flatMap (rowWrites Nalpha Nq Np CT VC ents ptr qidx deut))

end TicTac
end
