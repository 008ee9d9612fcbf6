import Verif.Model.PWStates
import Verif.Model.Jacobi
/-!
Prestored coupling-coefficient tables and the geometric function G built from them.
The coefficient functions of GSL (`gsl_sf_coupling_3j/6j/9j`, `gsl_sf_legendre_*`) are parameters.
-/
noncomputable section
namespace TicTac

/-- Flat index of the Clebsch–Gordan table: lookup auxiliary.cpp:140, fill make_permutation_matrix.cpp:490-492. -/
def cgIdx (jmax j1 j2 j3 m1 m2 : Int) : Int :=
  ((j1 + 1) * (j1 + 1) + m1 - j1 - 1) * (jmax + 1) * (jmax + 1) * (2 * jmax + 1)
    + ((j2 + 1) * (j2 + 1) + m2 - j2 - 1) * (2 * jmax + 1) + j3

/-- Allocated length, make_permutation_matrix.cpp:473. -/
def cgSize (jmax : Int) : Int := (jmax + 1) * (jmax + 1) * (jmax + 1) * (jmax + 1) * (2 * jmax + 1)

/-- Arguments `(j1,j2,j3,m1,m2)` visited by the fill loops, make_permutation_matrix.cpp:481-496. -/
def cgTuples (jmax : Int) : List (Int × Int × Int × Int × Int) :=
  (forRange 0 jmax 1).flatMap fun j1 => (forRange 0 jmax 1).flatMap fun j2 =>
    (forRange 0 (2 * jmax) 1).flatMap fun j3 => (forRange (-j1) j1 1).flatMap fun m1 =>
      (forRange (-j2) j2 1).map fun m2 => (j1, j2, j3, m1, m2)

/-- Flat index of the 6j table: lookup auxiliary.cpp:149-158, fill make_permutation_matrix.cpp:423-430. -/
def sixjIdx (jmax j1 j2 j3 j4 j5 j6 : Nat) : Nat :=
  j1 * (jmax + 1) * (jmax + 1) * (jmax + 1) * (jmax + 1) * (jmax + 1)
    + j2 * (jmax + 1) * (jmax + 1) * (jmax + 1) * (jmax + 1)
    + j3 * (jmax + 1) * (jmax + 1) * (jmax + 1)
    + j4 * (jmax + 1) * (jmax + 1)
    + j5 * (jmax + 1)
    + j6

/-- Arguments visited by the 6j fill loops, make_permutation_matrix.cpp:417-440. -/
def sixjTuples (jmax : Nat) : List (Nat × Nat × Nat × Nat × Nat × Nat) :=
  (List.range (jmax + 1)).flatMap fun a => (List.range (jmax + 1)).flatMap fun b =>
    (List.range (jmax + 1)).flatMap fun c => (List.range (jmax + 1)).flatMap fun d =>
      (List.range (jmax + 1)).flatMap fun e => (List.range (jmax + 1)).map fun f => (a, b, c, d, e, f)

/-- `SixJ_size`, make_permutation_matrix.cpp:409, in exact arithmetic. -/
def sixjSize (jmax : Nat) : Nat := (jmax + 1) * (jmax + 1) * (jmax + 1) * (jmax + 1) * (jmax + 1) * (jmax + 1)

/-- `SixJ_size` as the 32-bit `int` it is declared as (make_permutation_matrix.cpp:409), taking the usual
two's-complement wrap-around for the (undefined) overflow. -/
def sixjSizeInt32 (jmax : Nat) : Int := Int.bmod (sixjSize jmax) (2 ^ 32)

/-- The overflow check of make_permutation_matrix.cpp:410-412. -/
def sixjOverflowReported (jmax : Nat) : Bool := decide (sixjSizeInt32 jmax < 0)

/-- An array being filled: one write per loop iteration; unwritten entries keep arbitrary content. -/
def writeAll {ι α : Type} [DecidableEq ι] (init : ι → α) (ws : List (ι × α)) : ι → α :=
  ws.foldl (fun t w => fun i => if i = w.1 then w.2 else t i) init

/-- Contents of `ClebschGordan_data` after the fill loops executed in some order `order` of the iterations
(`omp for collapse(3)`), make_permutation_matrix.cpp:477-499; `cg` is the function `ClebschGordan`. -/
def cgTable (cg : Int → Int → Int → Int → Int → Int → ℝ) (jmax : Int) (init : Int → ℝ)
    (order : List (Int × Int × Int × Int × Int)) : Int → ℝ :=
  writeAll init (order.map fun t => (cgIdx jmax t.1 t.2.1 t.2.2.1 t.2.2.2.1 t.2.2.2.2,
    cg t.1 t.2.1 t.2.2.1 t.2.2.2.1 t.2.2.2.2 (t.2.2.2.1 + t.2.2.2.2)))

/-- Contents of `SixJ_array` after the fill loops executed in some order of the iterations
(`omp parallel for collapse(3)`), make_permutation_matrix.cpp:416-440; `sixj` is `gsl_sf_coupling_6j`. -/
def sixjTable (sixj : Nat → Nat → Nat → Nat → Nat → Nat → ℝ) (jmax : Nat) (init : Nat → ℝ)
    (order : List (Nat × Nat × Nat × Nat × Nat × Nat)) : Nat → ℝ :=
  writeAll init (order.map fun t =>
    (sixjIdx jmax t.1 t.2.1 t.2.2.1 t.2.2.2.1 t.2.2.2.2.1 t.2.2.2.2.2,
     sixj t.1 t.2.1 t.2.2.1 t.2.2.2.1 t.2.2.2.2.1 t.2.2.2.2.2))

/-- `gsl_sf_pow_int(-1, m)`. -/
def powNeg1 (m : Int) : ℝ := (-1 : ℝ) ^ m.natAbs

/-- `Plm`, auxiliary.cpp:195-205; `sph l m c` is `gsl_sf_legendre_sphPlm`. -/
def plmSigned (sph : Int → Int → ℝ → ℝ) (l m : Int) (c : ℝ) : ℝ :=
  if m ≥ 0 then sph l m c else powNeg1 m * sph l (-m) c

/-- Loop values of `Ltotal`, auxiliary.cpp:923 and 1000. -/
def ltotalRange (twoJ L l L' l' : Int) : List Int :=
  forRange (max ((L - l).natAbs : Int) ((L' - l').natAbs : Int)) (min ((twoJ + 5) / 2) (min (L + l) (L' + l'))) 1

/-- Reference formula `Gtilde_new`, auxiliary.cpp:893-950. `A` is the sub-array of `A_store` for this pair of
states. -/
def gtildeNew (cg : Int → Int → Int → Int → Int → Int → ℝ) (sph : Int → Int → ℝ → ℝ) (A : Int → ℝ)
    (twoJ L l L' l' : Int) (p q x : ℝ) : ℝ :=
  ((ltotalRange twoJ L l L' l').map fun Lt =>
    let fac1 := 8 * Real.pi * Real.pi * A Lt
    ((forRange (-(min l Lt)) (min l Lt) 1).map fun M =>
      let fac2 := cg (2 * L) (2 * l) (2 * Lt) 0 (2 * M) (2 * M) * Real.sqrt ((2 * (L : ℝ) + 1) / (4 * Real.pi))
        * powNeg1 M * plmSigned sph l M x
      ((forRange (-L') L' 1).map fun M' =>
        if (M - M').natAbs ≤ l' then
          fac1 * fac2 * cg (2 * L') (2 * l') (2 * Lt) (2 * M') (2 * M - 2 * M') (2 * M)
            * plmSigned sph L' M' (cosTheta1 p q x) * plmSigned sph l' (M - M') (cosTheta2 p q x)
        else 0).sum).sum).sum

/-- `gsl_sf_legendre_array_index`. -/
def gslIdx (l m : Nat) : Nat := l * (l + 1) / 2 + m

/-- Value read from a prestored Legendre sub-array with the sign fix for odd negative `m`,
auxiliary.cpp:1006-1012, 1031-1041 (C remainder truncates). -/
def plmStored (arr : Nat → ℝ) (l m : Int) : ℝ :=
  let v := arr (gslIdx l.toNat m.natAbs)
  if m < 0 ∧ m.tmod 2 = -1 then v * (-1) else v

open Classical in
/-- `Gtilde_subarray_new`, auxiliary.cpp:952-1068, with its prestored arrays. -/
def gtildeSub (tbl : Int → ℝ) (jmax : Int) (arr1 arr2 arr3 : Nat → ℝ) (A : Int → ℝ)
    (twoJ L l L' l' : Int) : ℝ :=
  ((ltotalRange twoJ L l L' l').map fun Lt =>
    let fac1 := 8 * Real.pi * Real.pi * A Lt
    if fac1 ≠ 0 then
      ((forRange (-(min l Lt)) (min l Lt) 1).map fun M =>
        let fac2 := tbl (cgIdx jmax (2 * L) (2 * l) (2 * Lt) 0 (2 * M)) * powNeg1 M * plmStored arr1 l M
        if fac2 ≠ 0 then
          ((forRange (-L') L' 1).map fun M' =>
            if (M - M').natAbs ≤ l' then
              fac1 * fac2 * tbl (cgIdx jmax (2 * L') (2 * l') (2 * Lt) (2 * M') (2 * M - 2 * M'))
                * plmStored arr2 L' M' * plmStored arr3 l' (M - M')
            else 0).sum
        else 0).sum
    else 0).sum * Real.sqrt ((2 * (L : ℝ) + 1) / (4 * Real.pi))

end TicTac
end
