import Verif.Model.Tables
import Verif.Model.Sparse
/-! Model of the values computed by `fill_P123_arrays` (make_permutation_matrix.cpp:1315-1415) for one 3N channel: phi meshes, overlap
table, coupling-coefficient tables, geometric function and the configuration of the P123 loops (`Model/Sparse`).  C `double` is ℝ.
GSL's functions are parameters (`Gsl`), with the contract of `Spec/Permutation`. -/
noncomputable section
namespace TicTac
open Classical

/-- The functions of GSL used: `gsl_sf_coupling_3j/6j/9j`, `gsl_sf_legendre_sphPlm`, `gsl_sf_legendre_array_n` and what
`gsl_sf_legendre_array_e(GSL_SF_LEGENDRE_SPHARM, lmax, x, -1, ·)` leaves at each offset of its result array. -/
structure Gsl where
  threeJ : Int → Int → Int → Int → Int → Int → ℝ
  sixJ : Nat → Nat → Nat → Nat → Nat → Nat → ℝ
  nineJ : Int → Int → Int → Int → Int → Int → Int → Int → Int → ℝ
  sph : Int → Int → ℝ → ℝ
  plmLen : Nat → Nat
  plmChunk : Nat → ℝ → Nat → ℝ

/-- `ClebschGordan`, auxiliary.cpp:127-135 (C division truncates; the third test repeats the first). -/
def clebschGordan (g : Gsl) (j1 j2 j3 m1 m2 m3 : Int) : ℝ :=
  if (m1.natAbs : Int) ≤ j1 ∧ (m2.natAbs : Int) ≤ j2 ∧ (m1.natAbs : Int) ≤ j1 then
    powNeg1 ((j1 - j2 + m3).tdiv 2) * Real.sqrt ((j3 : ℝ) + 1) * g.threeJ j1 j2 j3 m1 m2 (-m3)
  else 0

/-- `max_L12`, `max_l3`: loops of make_permutation_matrix.cpp:379-383. -/
def maxQ (f : PWState → Int) (states : List PWState) : Int := states.foldl (fun m s => if f s > m then f s else m) 0

/-- `lmax`, make_permutation_matrix.cpp:386. -/
def lmaxOf (states : List PWState) : Int := max (maxQ (·.l) states) (maxQ (·.L) states) + 3

/-- `Lmax`, make_permutation_matrix.cpp:393. -/
def LmaxOf (states : List PWState) : Nat := (maxQ (·.L) states + maxQ (·.l) states).toNat

/-- `Atilde`, auxiliary.cpp:863-884, reading the 6j table `six` of size parameter `jmax`. -/
def atilde (g : Gsl) (six : Nat → ℝ) (jmax : Nat) (a a' : PWState) (Lt twoJ twoT : Int) : ℝ :=
  ((forRange 1 3 2).map fun (twoS : Int) =>
    Real.sqrt (((2 * a.J + 1) * (a.twoj + 1) * (2 * a.S + 1) * (2 * a.T + 1) *
        (2 * a'.J + 1) * (a'.twoj + 1) * (2 * a'.S + 1) * (2 * a'.T + 1) : Int) : ℝ)
      * powNeg1 (a'.S + a'.T)
      * ((twoS : ℝ) + 1)
      * g.nineJ (2 * a.L) (2 * a.S) (2 * a.J) (2 * a.l) 1 a.twoj (2 * Lt) twoS twoJ
      * g.nineJ (2 * a'.L) (2 * a'.S) (2 * a'.J) (2 * a'.l) 1 a'.twoj (2 * Lt) twoS twoJ
      * six (sixjIdx jmax 1 1 (2 * a.S).toNat 1 twoS.toNat (2 * a'.S).toNat)
      * six (sixjIdx jmax 1 1 (2 * a.T).toNat 1 twoT.toNat (2 * a'.T).toNat)).sum

/-- `Atilde_store` after make_permutation_matrix.cpp:445-466: set to zero, then filled for pairs of equal total isospin. `junk` is the memory
after the array. -/
def atildeStore (g : Gsl) (six : Nat → ℝ) (jmax : Nat) (states : List PWState) (twoJ : Int) (junk : Nat → ℝ) : Nat → ℝ :=
  let n := states.length
  let Lmax := LmaxOf states
  writeAll (fun i => if i < n * n * (Lmax + 1) then 0 else junk i)
    (states.zipIdx.flatMap fun a => states.zipIdx.flatMap fun a' =>
      if a.1.twoT3 = a'.1.twoT3 then
        (List.range (Lmax + 1)).map fun (L : Nat) => (idxAtilde n Lmax a.2 a'.2 L, atilde g six jmax a.1 a'.1 L twoJ a.1.twoT3)
      else [])

/-- `dLegendre`, auxiliary.cpp:29-32; `P n x` is `gsl_sf_legendre_Pl`. -/
def dLegendre (P : Int → ℝ → ℝ) (x : ℝ) (n : Nat) : ℝ := (n * x * P n x - n * P ((n : Int) - 1) x) / (x * x - 1)

/-- `calc_gauss_points`, auxiliary.cpp:77-88, for the points `z` delivered by `roots`: node and weight `j`. -/
def gaussPoint (P : Int → ℝ → ℝ) (N : Nat) (z : Nat → ℝ) (a b : ℝ) (j : Nat) : ℝ × ℝ :=
  ((b - a) * (z j + 1) / 2 + a,
   2 / (1 - z j * z j) * 1 / (dLegendre P (z j) N * dLegendre P (z j) N) * (b - a) / 2)

/-- What the user chooses for the permutation matrix: wave-packet boundaries, quadrature sizes; and the meshes of the quadrature routines:
`xs i` node and weight of `gauss` (make_permutation_matrix.cpp:1346), `z` the result of `roots` for `Nphi` points, `P` is
`gsl_sf_legendre_Pl`. -/
structure P123Input where
  Nq : Nat
  Np : Nat
  q : Nat → ℝ
  p : Nat → ℝ
  Nx : Nat
  x : Nat → ℝ
  wx : Nat → ℝ
  Nphi : Nat
  z : Nat → ℝ
  P : Int → ℝ → ℝ

/-- Momentum cell of a q bin and a p bin. -/
def P123Input.cell (i : P123Input) (q p : Nat) : Cell := ⟨i.p p, i.p (p + 1), i.q q, i.q (q + 1)⟩

/-- The writes to `phi_array`, `wphi_array` in `calculate_WP_overlap`, make_permutation_matrix.cpp:163-185. -/
def phiWrites (i : P123Input) : List (Nat × (ℝ × ℝ)) :=
  (List.range i.Nq).flatMap fun qp => (List.range i.Np).flatMap fun pp => (List.range i.Nphi).map fun (f : Nat) =>
    (idxPhi i.Np i.Nphi qp pp f, gaussPoint i.P i.Nphi i.z (phiLower (i.cell qp pp)) (phiUpper (i.cell qp pp)) f)

/-- The x mesh as a list. -/
def P123Input.xs (i : P123Input) : List (ℝ × ℝ) := (List.range i.Nx).map fun (k : Nat) => (i.x k, i.wx k)

/-- Sine, cosine and weight of the phi mesh of a bra cell, read from the array: make_permutation_matrix.cpp:508-513, 806-815 and
196-200. -/
def phisOf (i : P123Input) (phi : Nat → ℝ × ℝ) (qp pp : Nat) : List (ℝ × ℝ × ℝ) :=
  (List.range i.Nphi).map fun (f : Nat) =>
    let e := phi (idxPhi i.Np i.Nphi qp pp f)
    (Real.sin e.1, Real.cos e.1, e.2)

/-- The writes to `pq_WP_overlap_array`, make_permutation_matrix.cpp:187-247; the phi points of the cell are those just written. -/
def overlapWrites (i : P123Input) : List (Nat × Bool) :=
  (List.range i.Nq).flatMap fun qp => (List.range i.Np).flatMap fun pp => (List.range i.Nq).flatMap fun q =>
    (List.range i.Np).map fun (p : Nat) =>
      (idxOverlap i.Np i.Nq qp pp q p, decide (wpOverlap (i.cell q p) (i.cell qp pp) i.xs
        ((List.range i.Nphi).map fun (f : Nat) =>
          let e := gaussPoint i.P i.Nphi i.z (phiLower (i.cell qp pp)) (phiUpper (i.cell qp pp)) f
          (Real.sin e.1, Real.cos e.1, e.2))))

/-- `gsl_Plm_1_array`, make_permutation_matrix.cpp:541-545: one call per x point. -/
def plmWrites1 (g : Gsl) (i : P123Input) (maxl : Nat) : List (Nat × ℝ) :=
  (List.range i.Nx).flatMap fun (k : Nat) => (List.range (g.plmLen maxl)).map fun (o : Nat) =>
    (k * g.plmLen maxl + o, g.plmChunk maxl (i.x k) o)

/-- `gsl_Plm_2_array` / `gsl_Plm_3_array`, make_permutation_matrix.cpp:546-592: one call per cell, phi and x; `cosine` is `cosTheta1` with
`maxL12`, `cosTheta2` with `max_l3`. -/
def plmWrites23 (g : Gsl) (i : P123Input) (phi : Nat → ℝ × ℝ) (cosine : ℝ → ℝ → ℝ → ℝ) (lm : Nat) : List (Nat × ℝ) :=
  (List.range i.Nq).flatMap fun qp => (List.range i.Np).flatMap fun pp => (List.range i.Nphi).flatMap fun f =>
    (List.range i.Nx).flatMap fun k => (List.range (g.plmLen lm)).map fun (o : Nat) =>
      (idxPlm i.Np i.Nphi i.Nx qp pp f k * g.plmLen lm + o,
       g.plmChunk lm (cosine (Real.sin (phi (idxPhi i.Np i.Nphi qp pp f)).1) (Real.cos (phi (idxPhi i.Np i.Nphi qp pp f)).1) (i.x k)) o)

/-- What the program does not determine: contents of fresh memory, the order in which threads do the writes of the parallel loops. -/
structure P123Env where
  sixInit : Nat → ℝ
  sixOrder : List (Nat × Nat × Nat × Nat × Nat × Nat)
  cgInit : Int → ℝ
  cgOrder : List (Int × Int × Int × Int × Int)
  phiInit : Nat → ℝ × ℝ
  phiOrder : List (Nat × (ℝ × ℝ))
  ovInit : Nat → Bool
  ovOrder : List (Nat × Bool)
  aJunk : Nat → ℝ
  plm1Init : Nat → ℝ
  plm2Init : Nat → ℝ
  plm3Init : Nat → ℝ
  gInit : Nat → ℝ

/-- The arrays the P123 loops read. -/
structure P123Arrays where
  phi : Nat → ℝ × ℝ
  overlap : Nat → Bool
  A : Nat → ℝ
  cg : Int → ℝ
  plm1 : Nat → ℝ
  plm2 : Nat → ℝ
  plm3 : Nat → ℝ

/-- make_permutation_matrix.cpp:1341-1359 and 339-612.  `twoJ` is `two_J_3N_array[0]`. -/
def p123Arrays (g : Gsl) (i : P123Input) (env : P123Env) (states : List PWState) (twoJ : Int) : P123Arrays :=
  let maxL := (maxQ (·.L) states).toNat
  let maxl := (maxQ (·.l) states).toNat
  let jmax := 2 * lmaxOf states
  let phi := writeAll env.phiInit env.phiOrder
  { phi := phi
    overlap := writeAll env.ovInit env.ovOrder
    A := atildeStore g (sixjTable g.sixJ jmax.toNat env.sixInit env.sixOrder) jmax.toNat states twoJ env.aJunk
    cg := cgTable (clebschGordan g) jmax env.cgInit env.cgOrder
    plm1 := writeAll env.plm1Init (plmWrites1 g i maxl)
    plm2 := writeAll env.plm2Init (plmWrites23 g i phi cosTheta1 maxL)
    plm3 := writeAll env.plm3Init (plmWrites23 g i phi cosTheta2 maxl) }

/-- `calculate_Gtilde_subarray_polar` as called for bra state `ap`, ket state `a`, bra cell `(qp, pp)`:
make_permutation_matrix.cpp:92-138, 762-786. -/
def gtildeArray (g : Gsl) (i : P123Input) (env : P123Env) (m : P123Arrays) (states : List PWState) (twoJ : Int) (qp pp ap a : Nat) : Nat → ℝ :=
  let n := states.length
  let Lmax := LmaxOf states
  let s' := states.getD ap ⟨0, 0, 0, 0, 0, 0, 0, 0, 0⟩
  let s := states.getD a ⟨0, 0, 0, 0, 0, 0, 0, 0, 0⟩
  let l1 := g.plmLen (maxQ (·.l) states).toNat
  let l2 := g.plmLen (maxQ (·.L) states).toNat
  let base := qp * i.Np * i.Nphi * i.Nx + pp * i.Nphi * i.Nx
  writeAll env.gInit ((List.range i.Nphi).flatMap fun f => (List.range i.Nx).map fun (k : Nat) =>
    (f * i.Nx + k,
      gtildeSub m.cg (2 * lmaxOf states) (fun o => m.plm1 (k * l1 + o)) (fun o => m.plm2 (base * l2 + (f * i.Nx + k) * l2 + o))
        (fun o => m.plm3 (base * l1 + (f * i.Nx + k) * l1 + o))
        (fun L => m.A (ap * n * (Lmax + 1) + a * (Lmax + 1) + L.toNat)) twoJ s'.L s'.l s.L s.l))

/-- What the loops of make_permutation_matrix.cpp:733-897 work on (production run). -/
def p123Cfg (g : Gsl) (i : P123Input) (env : P123Env) (states : List PWState) (twoJ : Int) : P123Cfg ℝ :=
  let m := p123Arrays g i env states twoJ
  { Nalpha := states.length, Nq := i.Nq, Np := i.Np, overlap := m.overlap
    elem := fun ap qp pp a q p => p123Element (i.cell q p) (i.cell qp pp)
      (fun f k => gtildeArray g i env m states twoJ qp pp ap a (f * i.Nx + k)) i.xs (phisOf i m.phi qp pp) }

end TicTac
end
