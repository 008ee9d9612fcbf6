import Verif.Model.Numeric
import Verif.Model.Channels2N
import Verif.Model.Layout
import Verif.Model.RunParams
import Mathlib.Algebra.BigOperators.Intervals
import Mathlib.Data.Real.Basic
/-!
Model of make_swp_states.cpp: channel Hamiltonians, diagonalisation (LAPACK by contract), bound-state check,
reordering of coupled spectra, scattering wave-packet boundaries.  Arrays are functions of the C index; `double` is ℝ.
-/
noncomputable section
namespace TicTac

/-- Free Hamiltonian array of an uncoupled / coupled channel (the three calls of `construct_free_hamiltonian`),
make_swp_states.cpp:28-42, 322-324. -/
def h0Array (N : Nat) (bounds : Nat → ℝ) (coupled : Bool) (i : Nat) : ℝ :=
  if coupled ∧ N ≤ i then freeH (bounds (i - N)) (bounds (i - N + 1)) else freeH (bounds i) (bounds (i + 1))

/-- Inner loop of `construct_full_hamiltonian`, make_swp_states.cpp:58-67: columns `r … dim-1` of row `r`. -/
def hRow (dim : Nat) (V : Nat → ℝ) (r : Nat) (H : Int → ℝ) : Int → ℝ :=
  (List.range (dim - r)).foldl (fun H k =>
    Function.update H (idxPacked dim r (r + k)) (H (idxPacked dim r (r + k)) + V (r * dim + (r + k)))) H

/-- `construct_full_hamiltonian`, make_swp_states.cpp:44-68. -/
def fullH (dim : Nat) (H0 V : Nat → ℝ) (H : Int → ℝ) : Int → ℝ :=
  (List.range dim).foldl (fun H r =>
    hRow dim V r (Function.update H (idxPacked dim r r) (H (idxPacked dim r r) + H0 r))) H

/-- The diagonalisation routine: packed upper triangle ↦ eigenvalues and row-major eigenvector matrix
(`diagonalize_real_symm_matrix`, make_swp_states.cpp:21-26; LAPACKE_dspevd itself is not modelled). -/
abbrev Diag := Nat → (Int → ℝ) → (Nat → ℝ) × (Nat → ℝ)

/-- First loop of `reorder_coupled_eigenspectrum`, make_swp_states.cpp:90-104: the buffers. -/
def reorderBufVals (N : Nat) (ev buf : Nat → ℝ) : Nat → ℝ :=
  (List.range N).foldl (fun b i => Function.update (Function.update b i (ev (2 * i))) (i + N) (ev (2 * i + 1))) buf
def reorderBufVecs (N : Nat) (z buf : Nat → ℝ) : Nat → ℝ :=
  (List.range N).foldl (fun b i => (List.range (2 * N)).foldl (fun b j =>
    Function.update (Function.update b (j * (2 * N) + i) (z (j * (2 * N) + 2 * i)))
      (j * (2 * N) + i + N) (z (j * (2 * N) + 2 * i + 1))) b) buf

/-- Copy-back loops, make_swp_states.cpp:106-111. -/
def copyVals (n : Nat) (src dst : Nat → ℝ) : Nat → ℝ :=
  (List.range n).foldl (fun d i => Function.update d i (src i)) dst
def copyVecs (n : Nat) (src dst : Nat → ℝ) : Nat → ℝ :=
  (List.range n).foldl (fun d i => (List.range n).foldl (fun d j => Function.update d (i * n + j) (src (i * n + j))) d) dst

/-- `reorder_coupled_eigenspectrum`, make_swp_states.cpp:85-112; `garbage` is the content of the stack buffers. -/
def reorderCoupled (N : Nat) (garbage : Nat → ℝ) (ev z : Nat → ℝ) : (Nat → ℝ) × (Nat → ℝ) :=
  (copyVals (2 * N) (reorderBufVals N ev garbage) ev, copyVecs (2 * N) (reorderBufVecs N z garbage) z)

open Classical in
/-- `look_for_unphysical_bound_states`, make_swp_states.cpp:114-144: new value of `E_bound`, or `raise_error`. -/
def lookBound (ev : Nat → ℝ) (dim : Nat) (chn : Bool) (Eb : ℝ) : Except Stop ℝ :=
  let s := (List.range dim).foldl (fun (s : Nat × ℝ) i => if ev i < 0 then (s.1 + 1, ev i) else s) (0, Eb)
  if s.1 = 0 ∧ chn = false then .ok s.2
  else if s.1 = 1 ∧ chn = true then .ok s.2
  else .error .raiseError

/-- `make_swp_bin_boundaries`, make_swp_states.cpp:146-183.  (For `N = 1` the C code reads `e_SWP_array[-1]`; the
natural-number subtraction here would read entry 0 instead, so theorems assume `2 ≤ N`.) -/
def swpBoundaries (N : Nat) (coupled chn : Bool) (ev : Nat → ℝ) (e : Nat → ℝ) : Nat → ℝ :=
  let e := Function.update e 0 0
  let e := if coupled then Function.update e (N + 1) 0 else e
  let e := (List.range (N - 1)).foldl (fun e i =>
    let e := Function.update e (i + 1) (0.5 * (ev (i + 1) + ev i))
    if coupled then Function.update e (i + 1 + N + 1) (0.5 * (ev (i + 1 + N) + ev (i + N))) else e) e
  let e := Function.update e N (ev (N - 1) + 0.5 * (e (N - 1) - e (N - 2)))
  let e := if coupled then Function.update e (2 * N + 1) (ev (2 * N - 1) + 0.5 * (e (2 * N) - e (2 * N - 1))) else e
  if chn then Function.update (Function.update e 0 (ev 0)) 1 0 else e

/-- State of the main loop of `make_swp_states`: `E_bound` and the arrays of boundaries and eigenvectors
(`true` = coupled arrays), indexed by the flat C index. -/
structure SwpState where
  Eb : ℝ
  e : Bool → Int → ℝ
  C : Bool → Int → ℝ

/-- Length of a channel's segment in the boundary arrays, make_swp_states.cpp:386, 408. -/
def eLen (N : Nat) (coupled : Bool) : Nat := if coupled then 2 * (N + 1) else N + 1
/-- Matrix dimension of a channel, make_swp_states.cpp:366, 389. -/
def chnDim (N : Nat) (coupled : Bool) : Nat := if coupled then 2 * N else N

/-- Replace the segment `start … start+len-1` of a flat array. -/
def storeSeg (a : Bool → Int → ℝ) (b : Bool) (start : Int) (len : Nat) (seg : Nat → ℝ) : Bool → Int → ℝ :=
  fun b' k => if b' = b ∧ start ≤ k ∧ k < start + len then seg (k - start).toNat else a b' k

/-- Work done for one channel, make_swp_states.cpp:362-443.  Each slot is processed once (check-lists), so its part of
the Hamiltonian array is still zero. -/
def swpChannel (N : Nat) (bounds : Nat → ℝ) (V : Bool → Int → ℝ) (diag : Diag) (garbage : Nat → ℝ) (st : SwpState) (j : Job) :
    Except Stop SwpState :=
  let b := j.slot.1
  let dim := chnDim N b
  let H := fullH dim (h0Array N bounds b) (fun k => V b (j.slot.2 * (dim * dim : Nat) + k)) (fun _ => 0)
  let wz := diag dim H
  match lookBound wz.1 dim (chn3S1 j) st.Eb with
  | .error s => .error s
  | .ok Eb =>
    let wz' := if b then reorderCoupled N garbage wz.1 wz.2 else wz
    let e0 : Nat → ℝ := fun i => st.e b (j.slot.2 * (eLen N b : Nat) + i)
    .ok { Eb := Eb
          e := storeSeg st.e b (j.slot.2 * (eLen N b : Nat)) (eLen N b) (swpBoundaries N b (chn3S1 j) wz'.1 e0)
          C := storeSeg st.C b (j.slot.2 * (dim * dim : Nat)) (dim * dim) wz'.2 }

/-- `make_swp_states`, make_swp_states.cpp:223-447: all channels in order; arrays start at zero (`C`: as allocated). -/
def makeSwpStates (p : PWParams) (N : Nat) (bounds : Nat → ℝ) (V : Bool → Int → ℝ) (diag : Diag) (garbage : Nat → ℝ)
    (C0 : Bool → Int → ℝ) (Eb0 : ℝ) (states : List PWState) : Except Stop SwpState :=
  match swpJobs p states with
  | none => .error .raiseError
  | some jobs => jobs.foldlM (swpChannel N bounds V diag garbage) ⟨Eb0, fun _ _ => 0, C0⟩

end TicTac
end
