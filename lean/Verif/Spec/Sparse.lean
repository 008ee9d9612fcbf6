import Verif.Model.Sparse
import Mathlib.Algebra.BigOperators.Group.List.Basic
/-!
Specification notions for sparse matrices and OpenMP work sharing.
-/
namespace TicTac.Spec

/-- A distribution of the iterations `0..N-1` over `T` threads: every iteration is executed exactly once. (OpenMP's
`for` with any schedule, chunk size or number of threads.) -/
def IsWorkSharing (N T : Nat) (assign : Nat → List Nat) : Prop :=
  ((List.range T).flatMap assign).Perm (List.range N)

/-- A trace interleaving the threads' event sequences in any way: each thread's own events appear in program order, and
only threads `0..T-1` act. -/
def IsInterleaving {E : Type} (T : Nat) (prog : Nat → List E) (tr : List (Nat × E)) : Prop :=
  (∀ ev ∈ tr, ev.1 < T) ∧ ∀ t < T, (tr.filter (·.1 = t)).map (·.2) = prog t

/-- The permutation matrix the elements define: element of the cell pair the row and column stand for, if the pair
overlaps. -/
def p123Matrix {V : Type} [Zero V] (c : P123Cfg V) (r k : Nat) : V :=
  let ap := r / (c.Np * c.Nq); let qp := (r / c.Np) % c.Nq; let pp := r % c.Np
  let a := k / (c.Np * c.Nq); let q := (k / c.Np) % c.Nq; let p := k % c.Np
  if c.overlap (((qp * c.Np + pp) * c.Nq + q) * c.Np + p) then c.elem ap qp pp a q p else 0

/-- `out` is the row-major sparse form of the `n × n` matrix `M`: strictly increasing in (row, column), and holding
exactly the non-zero elements. -/
def IsSparseForm {V : Type} [Zero V] (n : Nat) (M : Nat → Nat → V) (out : List (Entry V)) : Prop :=
  out.Pairwise (fun e f => e.row < f.row ∨ (e.row = f.row ∧ e.col < f.col)) ∧
  ∀ r k v, (⟨r, k, v⟩ : Entry V) ∈ out ↔ r < n ∧ k < n ∧ v = M r k ∧ v ≠ 0

/-- The matrix a list of COO entries stands for (repeated entries add up). -/
def matOf {V : Type} [AddCommMonoid V] (entries : List (Entry V)) (r k : Nat) : V :=
  ((entries.filter fun e => e.row = r ∧ e.col = k).map (·.val)).sum

end TicTac.Spec
