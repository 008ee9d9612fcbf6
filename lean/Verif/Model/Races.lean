/-! The parallel loops of a run: which thread reads and writes which element of the arrays that threads share. Arrays allocated or declared inside a
parallel region belong to one thread and are not listed; nor is what GSL and HDF5 keep. -/
namespace TicTac

/-- make_permutation_matrix.cpp: 166 (overlaps and phi meshes), 416 (6j), 477 (Clebsch-Gordan), 692 (elements), 1058, 1107, 1124, 1135 (merging);
solve_faddeev.cpp: 199 (first rows of the kernel), 1037 (columns of the kernel). -/
inductive Region where
  | overlap | sixJ | clebsch | elements | keys | sortRows | sortCols | sortVals | rows | columns
deriving DecidableEq

/-- The shared arrays; `table`: everything a region only reads. -/
inductive RArr where
  | phi | wphi | overlap | sixJ | clebsch | val (t : Nat) | row (t : Nat) | col (t : Nat) | dim | tfc | rowsDone | keyVec | temp | cpvcRows | cpvcCols
  | rowToNnz | nnzToRow | counter | table
deriving DecidableEq

structure RaceSize where
  Np : Nat
  Nq : Nat
  Nphi : Nat
  Nalpha : Nat
  j6 : Nat
  jcg : Nat
  buffer : Nat
  threads : Nat
  team : Nat
  nnz : Nat
  nE : Nat
  nD : Nat
  colStart : Nat
  colEnd : Nat

def RaceSize.D (g : RaceSize) : Nat := g.Nalpha * g.Nq * g.Np

/-- Which thread executes an iteration of a `for` that is divided among the threads. -/
abbrev Sched := Region → List Nat → Nat

/-- `RAcc g σ R t a i w`: in region `R` thread `t` can access element `i` of `a`; `w`: by writing. -/
inductive RAcc (g : RaceSize) (σ : Sched) : Region → Nat → RArr → Int → Bool → Prop
  -- make_permutation_matrix.cpp:169-237
  | ovPhi {qp pp i : Nat} (w : Bool) (h1 : qp < g.Nq) (h2 : pp < g.Np) (h3 : i < g.Nphi) :
      RAcc g σ .overlap (σ .overlap [qp]) .phi ((qp * g.Np + pp) * g.Nphi + i : Nat) w
  | ovWphi {qp pp i : Nat} (w : Bool) (h1 : qp < g.Nq) (h2 : pp < g.Np) (h3 : i < g.Nphi) :
      RAcc g σ .overlap (σ .overlap [qp]) .wphi ((qp * g.Np + pp) * g.Nphi + i : Nat) w
  | ovCell {qp pp q p : Nat} (h1 : qp < g.Nq) (h2 : pp < g.Np) (h3 : q < g.Nq) (h4 : p < g.Np) :
      RAcc g σ .overlap (σ .overlap [qp]) .overlap (qp * (g.Np * g.Nq * g.Np) + pp * (g.Nq * g.Np) + q * g.Np + p : Nat) true
  -- 417-438, 483-500: `collapse(3)`
  | six {l1 l2 l3 l4 l5 l6 : Nat} (h1 : l1 ≤ g.j6) (h2 : l2 ≤ g.j6) (h3 : l3 ≤ g.j6) (h4 : l4 ≤ g.j6) (h5 : l5 ≤ g.j6) (h6 : l6 ≤ g.j6) :
      RAcc g σ .sixJ (σ .sixJ [l1, l2, l3]) .sixJ
        (l1 * (g.j6 + 1) * (g.j6 + 1) * (g.j6 + 1) * (g.j6 + 1) * (g.j6 + 1) + l2 * (g.j6 + 1) * (g.j6 + 1) * (g.j6 + 1) * (g.j6 + 1)
          + l3 * (g.j6 + 1) * (g.j6 + 1) * (g.j6 + 1) + l4 * (g.j6 + 1) * (g.j6 + 1) + l5 * (g.j6 + 1) + l6 : Nat) true
  | cg {j1 j2 j3 : Nat} {m1 m2 : Int} (h1 : j1 ≤ g.jcg) (h2 : j2 ≤ g.jcg) (h3 : j3 ≤ 2 * g.jcg) (h4 : -(j1 : Int) ≤ m1 ∧ m1 ≤ j1)
      (h5 : -(j2 : Int) ≤ m2 ∧ m2 ≤ j2) :
      RAcc g σ .clebsch (σ .clebsch [j1, j2, j3]) .clebsch
        ((((j1 : Int) + 1) * (j1 + 1) + m1 - j1 - 1) * (g.jcg + 1) * (g.jcg + 1) * (2 * g.jcg + 1) + (((j2 : Int) + 1) * (j2 + 1) + m2 - j2 - 1) * (2 * g.jcg + 1) + j3)
        true
  -- 735-886: the buffers, counters of elements and of files of a thread; its counter of rows, and all of them read by thread 0
  | elVal {qp k : Nat} (w : Bool) (h1 : qp < g.Nq) (h2 : 0 < g.Np) (h3 : k < g.buffer) : RAcc g σ .elements (σ .elements [qp]) (.val (σ .elements [qp])) k w
  | elRow {qp k : Nat} (w : Bool) (h1 : qp < g.Nq) (h2 : 0 < g.Np) (h3 : k < g.buffer) : RAcc g σ .elements (σ .elements [qp]) (.row (σ .elements [qp])) k w
  | elCol {qp k : Nat} (w : Bool) (h1 : qp < g.Nq) (h2 : 0 < g.Np) (h3 : k < g.buffer) : RAcc g σ .elements (σ .elements [qp]) (.col (σ .elements [qp])) k w
  | elDim {qp : Nat} (w : Bool) (h1 : qp < g.Nq) (h2 : 0 < g.Np) : RAcc g σ .elements (σ .elements [qp]) .dim (σ .elements [qp]) w
  | elTfc {qp : Nat} (w : Bool) (h1 : qp < g.Nq) (h2 : 0 < g.Np) : RAcc g σ .elements (σ .elements [qp]) .tfc (σ .elements [qp]) w
  | elDone {qp : Nat} (w : Bool) (h1 : qp < g.Nq) (h2 : 0 < g.Np) : RAcc g σ .elements (σ .elements [qp]) .rowsDone (σ .elements [qp]) w
  | elProgress {qp i : Nat} (h1 : qp < g.Nq) (h2 : 0 < g.Np) (h3 : σ .elements [qp] = 0) (h4 : i < g.threads) : RAcc g σ .elements 0 .rowsDone i false
  -- 1059-1071, 1108-1110, 1125-1127, 1136-1138: `parallel` without `for`, every thread does every iteration
  | key {t i : Nat} (h1 : t < g.team) (h2 : i < g.nnz) : RAcc g σ .keys t .keyVec i true
  | sortRows {t i : Nat} (h1 : t < g.team) (h2 : i < g.nnz) : RAcc g σ .sortRows t .temp i true
  | sortCols {t i : Nat} (h1 : t < g.team) (h2 : i < g.nnz) : RAcc g σ .sortCols t .temp i true
  | sortVals {t i : Nat} (h1 : t < g.team) (h2 : i < g.nnz) : RAcc g σ .sortVals t .temp i true
  -- solve_faddeev.cpp:206-264
  | kRow {α q p i j : Nat} (h1 : α < g.Nalpha) (h2 : q < g.Nq) (h3 : p < g.Np) (h4 : i < g.nD) (h5 : j < g.nE) :
      RAcc g σ .rows (σ .rows [α]) .cpvcRows ((i * g.nE + j) * g.D + (α * g.Nq * g.Np + q * g.Np + p) : Nat) true
  -- 1040-1069 with 4-181: the column, the thread's index arrays and its counter
  | kCol {c r : Nat} (w : Bool) (h1 : g.colStart ≤ c) (h2 : c < g.colEnd) (h3 : r < g.D) :
      RAcc g σ .columns (σ .columns [c]) .cpvcCols ((c - g.colStart) * g.D + r : Nat) w
  | kR2n {c k : Nat} (w : Bool) (h1 : g.colStart ≤ c) (h2 : c < g.colEnd) (h3 : k < g.D) :
      RAcc g σ .columns (σ .columns [c]) .rowToNnz (σ .columns [c] * g.D + k : Nat) w
  | kN2r {c k : Nat} (w : Bool) (h1 : g.colStart ≤ c) (h2 : c < g.colEnd) (h3 : k < g.D) :
      RAcc g σ .columns (σ .columns [c]) .nnzToRow (σ .columns [c] * g.D + k : Nat) w
  | kCount {c : Nat} (w : Bool) (h1 : g.colStart ≤ c) (h2 : c < g.colEnd) : RAcc g σ .columns (σ .columns [c]) .counter (σ .columns [c] : Nat) w
  -- any region, any thread: what no thread of the region writes
  | shared {R : Region} {t : Nat} {i : Int} : RAcc g σ R t .table i false

/-- Two threads at the same element of an array, one of them writing. -/
def Race (g : RaceSize) (σ : Sched) (R : Region) (a : RArr) : Prop :=
  ∃ t t' i w w', t ≠ t' ∧ RAcc g σ R t a i w ∧ RAcc g σ R t' a i w' ∧ (w = true ∨ w' = true)

/-! ### Threads that share a memory -/

abbrev RLoc := RArr × Int

/-- One assignment of a thread: the element written, those read, and the value as a function of what is read. -/
structure ROp (V : Type) where
  thread : Nat
  loc : RLoc
  reads : List RLoc
  f : List V → V

def ROp.val {V : Type} (o : ROp V) (m : RLoc → V) : V := o.f (o.reads.map m)

def ROp.run {V : Type} (o : ROp V) (m : RLoc → V) : RLoc → V := fun l => if l = o.loc then o.val m else m l

/-- The assignments of all threads in the order in which they happen. -/
def runAsg {V : Type} : List (ROp V) → (RLoc → V) → RLoc → V
  | [], m => m
  | o :: s, m => runAsg s (o.run m)

/-- An assignment that does what the region lets its thread do; the progress line of thread 0 is left out. -/
def Conforms {V : Type} (g : RaceSize) (σ : Sched) (R : Region) (o : ROp V) : Prop :=
  RAcc g σ R o.thread o.loc.1 o.loc.2 true ∧ ∀ l ∈ o.reads, RAcc g σ R o.thread l.1 l.2 false ∧ (l.1 = .rowsDone → l.2 = o.thread)

/-! ### Calls of HDF5 -/

/-- What a thread does in the calculation of the elements: an element into its buffer, and writing the buffer to a file, which begins and ends. -/
inductive HEv where
  | elem | enter | leave
deriving DecidableEq

/-- The events of a thread that finds `n` elements, make_permutation_matrix.cpp:841-877: a full buffer is written at once.  What is left after the loops is
written by one thread (905-928). -/
def bufEvents (buffer n : Nat) : List HEv := (List.range n).flatMap fun k => .elem :: if (k + 1) % buffer = 0 then [.enter, .leave] else []

/-- The thread is writing a file. -/
def Writing (l : List HEv) : Prop := l.count .enter ≠ l.count .leave

/-- An order of the events of all threads. -/
def Interleaves (threads : Nat) (ev : Nat → List HEv) (s : List (Nat × HEv)) : Prop :=
  ∀ t, (s.filter fun e => e.1 = t).map (·.2) = if t < threads then ev t else []

/-- At some moment two threads are writing files. -/
def TwoWriting (s : List (Nat × HEv)) : Prop :=
  ∃ a b, s = a ++ b ∧ ∃ t t', t ≠ t' ∧ Writing ((a.filter fun e => e.1 = t).map (·.2)) ∧ Writing ((a.filter fun e => e.1 = t').map (·.2))

end TicTac
