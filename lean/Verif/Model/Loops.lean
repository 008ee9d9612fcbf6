import Verif.Model.Chp
import Mathlib.Analysis.SpecialFunctions.Trigonometric.Arctan
/-! Model of the loop functions of two-pion exchange: CPP/Interactions/chp/chiral-twobody-potentials.f90 ("F" below), lines
1839-3053, with the constants of F:3543-3634 and the tables kept between calls (F:1253-1263, 1782-1803).  `REAL(8)` is idealised
as ℝ; the compiler flag `-fdefault-real-8` (CPP/makefile:30) makes every literal a `REAL(8)`.  `p.mpi 2` is the pion mass of all
calls (`impi = 2`, F:1573-1700); the nucleon mass index is an argument.  The three Gauss-Legendre meshes of F:1787-1798 are the
parameter `r`: their points and weights, in order. -/
noncomputable section
namespace TicTac

/-- `chp_2PE_2loop_int_mesh_x`, `…_mesh_z`, `…_mesh_z_VC_SFR`, F:1787-1798; the last two start at `z_low`. -/
structure LoopRules where
  x : List (ℝ × ℝ)
  z : ℝ → List (ℝ × ℝ)
  zVC : ℝ → List (ℝ × ℝ)

/-- `z_low`, F:3571-3576. -/
def zLow (p : PionData) : ℝ :=
  match p.sfr with
  | none => 0
  | some Λ => if 2 * p.mpi 2 / Λ > 1 then 1 else 2 * p.mpi 2 / Λ

/-- `gA2`, F:3580. -/
def gA2 (p : PionData) : ℝ := p.gA * p.gA

/-- `gA4`, F:3581. -/
def gA4 (p : PionData) : ℝ := gA2 p * gA2 p

/-- `fpi2`, F:3583. -/
def fpi2 (p : PionData) : ℝ := p.fpi * p.fpi

/-- `fpi4`, F:3584. -/
def fpi4 (p : PionData) : ℝ := fpi2 p * fpi2 p

/-- `fpi_inv`, F:3585. -/
def fpiInv (p : PionData) : ℝ := 1 / p.fpi

/-- `mpi2(2)`, F:3554. -/
def mpi2 (p : PionData) : ℝ := p.mpi 2 * p.mpi 2

/-- `mpi3(2)`, F:3555. -/
def mpi3 (p : PionData) : ℝ := p.mpi 2 * mpi2 p

/-- `mpi4(2)`, F:3556. -/
def mpi4 (p : PionData) : ℝ := mpi2 p * mpi2 p

/-- `mpi5(2)`, F:3557. -/
def mpi5 (p : PionData) : ℝ := mpi4 p * p.mpi 2

/-- `twompi(2)`, F:3558. -/
def twompi (p : PionData) : ℝ := 2 * p.mpi 2

/-- `fourmpi2(2)`, F:3559. -/
def fourmpi2 (p : PionData) : ℝ := 4 * mpi2 p

/-- `pi2`, F:109. -/
def pi2 : ℝ := Real.pi * Real.pi

/-- `mnuc_inv`, F:3553. -/
def mnucInv (p : PionData) (im : Int) : ℝ := 1 / p.mnuc im

/-- `const(2)` … `const(21)`, F:3591-3634. -/
def loopConst (p : PionData) : Nat → ℝ
  | 2 => gA2 p / (4 * fpi2 p)
  | 3 => 384 * pi2 * fpi4 p
  | 4 => 5 * gA4 p - 4 * gA2 p - 1
  | 5 => 23 * gA4 p - 10 * gA2 p - 1
  | 6 => 48 * gA4 p
  | 7 => 3 * gA4 p
  | 8 => 64 * pi2 * fpi4 p
  | 9 => 3 * gA2 p / (16 * Real.pi * fpi4 p)
  | 10 => gA2 p / 16
  | 11 => 2 * (2 * p.c1 - p.c3)
  | 12 => 3 * gA4 p / (256 * Real.pi * fpi4 p)
  | 13 => gA2 p / (128 * Real.pi * fpi4 p)
  | 14 => gA4 p / (128 * Real.pi * fpi4 p)
  | 15 => 3 * gA4 p / (512 * Real.pi * fpi4 p)
  | 16 => gA2 p / (32 * Real.pi * fpi4 p)
  | 17 => gA2 p / 8
  | 18 => gA4 p / (256 * Real.pi * fpi4 p)
  | 19 => 3 * gA4 p / (32 * Real.pi * fpi4 p)
  | 20 => gA2 p / (32 * Real.pi * fpi4 p) * (1 - gA2 p)
  | 21 => 1 / (pi2 * fpi4 p)
  | _ => 0

/-! ### Loop functions -/

/-- `chp_NLO_two_pion_exchange_loop_w`, F:1839-1847. -/
def loopW (p : PionData) (q2 : ℝ) : ℝ := Real.sqrt (fourmpi2 p + q2)

/-- `chp_NNLO_two_pion_exchange_loop_wtilde2`, F:1941-1950. -/
def loopWt2 (p : PionData) (q2 : ℝ) : ℝ := 2 * mpi2 p + q2

/-- `chp_NLO_dr_two_pion_exchange_loop_L` (F:1864-1873), `chp_NLO_sfr_two_pion_exchange_loop_s` (F:1851-1858) and `…_sfr_…_L`
(F:1880-1894), chosen as in F:1572-1580; `sfr_heavyside` F:3566-3569; `q = DSQRT(q2)`, F:1497. -/
def loopL (p : PionData) (q2 : ℝ) : ℝ :=
  let q := Real.sqrt q2
  let w := loopW p q2
  match p.sfr with
  | none => w * Real.log ((w + q) / twompi p) / q
  | some Λ =>
    let s := Real.sqrt (Λ * Λ - fourmpi2 p)
    if Λ - twompi p < 0 then 0
    else w * Real.log ((Λ * Λ * w * w + q2 * s * s + 2 * Λ * q * w * s) / (fourmpi2 p * (Λ * Λ + q2))) / (2 * q)

/-- `chp_NNLO_dr_two_pion_exchange_loop_A` (F:1955-1964) and `…_sfr_…_A` (F:1970-1982), chosen as in F:1583-1592. -/
def loopA (p : PionData) (q2 : ℝ) : ℝ :=
  let q := Real.sqrt q2
  match p.sfr with
  | none => Real.arctan (q / twompi p) / (2 * q)
  | some Λ =>
    if Λ - twompi p < 0 then 0
    else Real.arctan (q * (Λ - twompi p) / (q2 + Λ * twompi p)) / (2 * q)

/-! ### One-loop contributions -/

/-- `chp_two_pion_exchange_1loop_0_Wc`, F:1899-1909. -/
def l0Wc (p : PionData) (q2 : ℝ) : ℝ :=
  let w := loopW p q2;
  -loopL p q2 * (fourmpi2 p * loopConst p 4 + q2 * loopConst p 5 + loopConst p 6 * mpi4 p / (w * w)) / loopConst p 3

/-- `chp_two_pion_exchange_1loop_0_Vs`, F:1914-1923. -/
def l0Vs (p : PionData) (q2 : ℝ) : ℝ := loopConst p 7 * loopL p q2 * q2 / loopConst p 8

/-- `chp_two_pion_exchange_1loop_0_VT`, F:1928-1936. -/
def l0VT (p : PionData) (q2 : ℝ) : ℝ := -loopConst p 7 * loopL p q2 / loopConst p 8

/-- `chp_two_pion_exchange_1loop_d_Vc`, F:1989-2000. -/
def ldVc (p : PionData) (q2 : ℝ) : ℝ :=
  loopConst p 9 * (-((mpi2 p * loopConst p 11 - q2 * p.c3) * loopWt2 p q2 * loopA p q2))

/-- `chp_two_pion_exchange_1loop_d_WT`, F:2154-2163. -/
def ldWT (p : PionData) (q2 : ℝ) : ℝ :=
  let w := loopW p q2;
  -1 * loopConst p 16 * loopA p q2 * (p.c4 * w * w)

/-- `chp_two_pion_exchange_1loop_d_Ws`, F:2211-2220. -/
def ldWs (p : PionData) (q2 : ℝ) : ℝ := -q2 * ldWT p q2

/-- `chp_two_pion_exchange_1loop_r_Vc`, F:2010-2041: modes 201 = EM2011, 202 = EM2015, 203 = Ep2005, 204 = Ep2015 (F:1237-1240).
The program stops on other modes; the value here is then 0. -/
def lrVc (p : PionData) (im : Int) (q2 : ℝ) : ℝ :=
  let w := loopW p q2
  let A := loopA p q2
  let wt2 := loopWt2 p q2
  let M := p.mnuc im
  if p.rMode = 201 then
    loopConst p 9 * loopConst p 10 * (mpi5 p / (w * w) + q2 * 3 * wt2 * A) / M
      - loopConst p 12 * (p.mpi 2 * w * w + wt2 * wt2 * A) / M
  else if p.rMode = 203 then loopConst p 15 * (2 * mpi5 p / (w * w) - 3 * (4 * mpi4 p - q2 * q2) * A) / M
  else if p.rMode = 202 then
    3 * loopConst p 14 * (mpi5 p / (2 * w * w) + (2 * mpi2 p + q2) * (q2 - mpi2 p) * A) / M
  else if p.rMode = 204 then
    loopConst p 15 * (2 * mpi5 p / w ^ 2 - 3 * (4 * mpi4 p - q2 ^ 2) * A) / M
      + loopConst p 15 * (2 * mpi2 p + q2) ^ 2 * A / M
  else 0

/-- `chp_two_pion_exchange_1loop_r_Wc`, F:2050-2087; the program stops on modes other than 201, 202, 204. -/
def lrWc (p : PionData) (im : Int) (q2 : ℝ) : ℝ :=
  let w := loopW p q2
  let A := loopA p q2
  let wt2 := loopWt2 p q2
  let M := p.mnuc im
  if p.rMode = 201 then
    loopConst p 13 * (3 * gA2 p * mpi5 p / (w * w) - (fourmpi2 p + 2 * q2 - gA2 p * (fourmpi2 p + 3 * q2)) * wt2 * A) / M
      + loopConst p 14 * (p.mpi 2 * w * w + wt2 * wt2 * A) / M
  else if p.rMode = 202 then
    2 * loopConst p 13 * (3 * gA2 p * mpi5 p / (2 * w * w)
      + (gA2 p * (3 * mpi2 p + 2 * q2) - 2 * mpi2 p - q2) * (2 * mpi2 p + q2) * A) / M
  else if p.rMode = 204 then
    loopConst p 13 * (3 * gA2 p * mpi5 p / (w * w)
      - (4 * mpi2 p + 2 * q2 - gA2 p * (7 * mpi2 p + 4.5 * q2)) * (2 * mpi2 p + q2) * A) / M
      - loopConst p 18 * (2 * mpi2 p + q2) ^ 2 * A / M
  else 0

/-- `chp_two_pion_exchange_1loop_r_VT`, F:2094-2122. -/
def lrVT (p : PionData) (im : Int) (q2 : ℝ) : ℝ :=
  let w := loopW p q2
  let A := loopA p q2
  let wt2 := loopWt2 p q2
  let M := p.mnuc im
  if p.rMode = 201 then 3 * loopConst p 15 * wt2 * A / M + loopConst p 15 * (p.mpi 2 + w * w * A) / M
  else if p.rMode = 202 then 3 * loopConst p 18 * (5 * mpi2 p + 2 * q2) * A / M
  else if p.rMode = 204 then
    3 * loopConst p 15 * (4 * mpi2 p + 1.5 * q2) * A / M - 0.5 * loopConst p 15 * (4 * mpi2 p + q2) * A / M
  else 0

/-- `chp_two_pion_exchange_1loop_r_Vs`, F:2133-2145. -/
def lrVs (p : PionData) (im : Int) (q2 : ℝ) : ℝ := -q2 * lrVT p im q2

/-- `chp_two_pion_exchange_1loop_r_WT`, F:2172-2203. -/
def lrWT (p : PionData) (im : Int) (q2 : ℝ) : ℝ :=
  let w := loopW p q2
  let A := loopA p q2
  let M := p.mnuc im
  if p.rMode = 201 then
    -1 * loopConst p 16 * A * (1 / (4 * M) * w * w - loopConst p 17 * (10 * mpi2 p + 3 * q2) / M)
      - loopConst p 18 * (p.mpi 2 + w * w * A) / M
  else if p.rMode = 202 then loopConst p 13 * (gA2 p * (3 * mpi2 p + q2) - w ^ 2) * A / M
  else if p.rMode = 204 then
    -0.5 * loopConst p 13 * (8 * mpi2 p + 2 * q2 - gA2 p * (4 * mpi2 p + 1.5 * q2)) * A / M
      + 0.5 * loopConst p 18 * (4 * mpi2 p + q2) * A / M
  else 0

/-- `chp_two_pion_exchange_1loop_r_Ws`, F:2229-2240. -/
def lrWs (p : PionData) (im : Int) (q2 : ℝ) : ℝ := -q2 * lrWT p im q2

/-- `chp_two_pion_exchange_1loop_r_VLS`, F:2246-2255. -/
def lrVLS (p : PionData) (im : Int) (q2 : ℝ) : ℝ := loopConst p 19 * loopWt2 p q2 * loopA p q2 / p.mnuc im

/-- `chp_two_pion_exchange_1loop_r_WLS`, F:2261-2270. -/
def lrWLS (p : PionData) (im : Int) (q2 : ℝ) : ℝ :=
  let w := loopW p q2
  loopConst p 20 * w * w * loopA p q2 / p.mnuc im

/-- `chp_N3LO_2PE_Vc_1loop_ci2`, F:2282-2291. -/
def lddVc (p : PionData) (q2 : ℝ) : ℝ :=
  let w := loopW p q2
  let res := p.c2 * (1 / 6) * w * w + p.c3 * loopWt2 p q2 - p.c1 * fourmpi2 p
  3 / 16 * loopConst p 21 * loopL p q2 * (res * res + p.c2 * p.c2 * w * w * w * w * (1 / 45))

/-- `chp_N3LO_2PE_WT_1loop_ci2`, F:2862-2869. -/
def lddWT (p : PionData) (q2 : ℝ) : ℝ :=
  let w := loopW p q2
  p.c4 * p.c4 * loopConst p 21 * (1 / 96) * w * w * loopL p q2

/-- `chp_N3LO_2PE_Ws_1loop_ci2`, F:2988-2996. -/
def lddWs (p : PionData) (q2 : ℝ) : ℝ := -q2 * lddWT p q2

/-- `chp_N3LO_2PE_Vc_1loop_ci1`, F:2294-2306. -/
def ldrVc (p : PionData) (im : Int) (q2 : ℝ) : ℝ :=
  let w := loopW p q2;
  -gA2 p * loopConst p 21 * mnucInv p im * (1 / 32) * loopL p q2 *
    ((p.c2 - 6 * p.c3) * q2 * q2 + 4 * (6 * p.c1 + p.c2 - 3 * p.c3) * q2 * mpi2 p + 6 * (p.c2 - 2 * p.c3) * mpi4 p
      + 24 * (2 * p.c1 + p.c3) * mpi4 p * mpi2 p / (w * w))

/-- `chp_N3LO_2PE_Wc_1loop_ci1`, F:2401-2411. -/
def ldrWc (p : PionData) (im : Int) (q2 : ℝ) : ℝ :=
  let w := loopW p q2;
  -p.c4 * q2 * loopL p q2 * loopConst p 21 * mnucInv p im * (1 / 192) * (gA2 p * (8 * mpi2 p + 5 * q2) + w * w)

/-- `chp_N3LO_2PE_VLS_1loop_ci1`, F:2684-2692. -/
def ldrVLS (p : PionData) (im : Int) (q2 : ℝ) : ℝ :=
  let w := loopW p q2
  p.c2 * gA2 p * loopConst p 21 * mnucInv p im * (1 / 8) * w * w * loopL p q2

/-- `chp_N3LO_2PE_WLS_1loop_ci1`, F:2708-2718. -/
def ldrWLS (p : PionData) (im : Int) (q2 : ℝ) : ℝ :=
  let w := loopW p q2;
  -p.c4 * loopConst p 21 * mnucInv p im * (1 / 48) * loopL p q2 * (gA2 p * (8 * mpi2 p + 5 * q2) + w * w)

/-- `chp_N3LO_2PE_WT_1loop_ci1`, F:2872-2882. -/
def ldrWT (p : PionData) (im : Int) (q2 : ℝ) : ℝ :=
  let w := loopW p q2;
  -p.c4 * loopConst p 21 * mnucInv p im * (1 / 192) * loopL p q2 * (gA2 p * (16 * mpi2 p + 7 * q2) - w * w)

/-- `chp_N3LO_2PE_Ws_1loop_ci1`, F:2999-3008. -/
def ldrWs (p : PionData) (im : Int) (q2 : ℝ) : ℝ := -q2 * ldrWT p im q2

/-- `chp_N3LO_2PE_Vc_1loop_ci0`, F:2310-2321. -/
def lrrVc (p : PionData) (im : Int) (q2 : ℝ) : ℝ :=
  let w := loopW p q2;
  -gA2 p * gA2 p * loopConst p 21 * mnucInv p im * mnucInv p im * (1 / 32) *
    (loopL p q2 * (2 * mpi4 p * mpi4 p / (w * w * w * w) + 8 * mpi3 p * mpi3 p / (w * w) - q2 * q2 - 2 * mpi4 p)
      + mpi3 p * mpi3 p * 0.5 / (w * w))

/-- `chp_N3LO_2PE_Wc_1loop_ci0`, F:2414-2431. -/
def lrrWc (p : PionData) (im : Int) (q2 k2 : ℝ) : ℝ :=
  let w := loopW p q2;
  -loopConst p 21 * mnucInv p im * mnucInv p im * (1 / 768) *
    (loopL p q2 * (8 * gA2 p * (1.5 * q2 * q2 + 3 * mpi2 p * q2 + 3 * mpi4 p - 6 * mpi3 p * mpi3 p / (w * w)
          - k2 * (8 * mpi2 p + 5 * q2))
        + 4 * gA2 p * gA2 p * (k2 * (20 * mpi2 p + 7 * q2 - 16 * mpi4 p / (w * w)) + 16 * mpi4 p * mpi4 p / (w * w * w * w)
          + 12 * mpi3 p * mpi3 p / (w * w) - 4 * mpi4 p * q2 / (w * w) - 5 * q2 * q2 - 6 * mpi2 p * q2 - 6 * mpi4 p)
        - 4 * k2 * w * w)
      + 16 * gA2 p * gA2 p * mpi3 p * mpi3 p / (w * w))

/-- `chp_N3LO_2PE_VLS_1loop_ci0`, F:2695-2705. -/
def lrrVLS (p : PionData) (im : Int) (q2 : ℝ) : ℝ :=
  let w := loopW p q2
  gA2 p * gA2 p * loopConst p 21 * 0.25 * mnucInv p im * mnucInv p im * loopL p q2 * (11 / 32 * q2 + mpi4 p / (w * w))

/-- `chp_N3LO_2PE_WLS_1loop_ci0`, F:2721-2732. -/
def lrrWLS (p : PionData) (im : Int) (q2 : ℝ) : ℝ :=
  let w := loopW p q2
  loopConst p 21 * mnucInv p im * mnucInv p im * (1 / 256) * loopL p q2 *
    (16 * gA2 p * (mpi2 p + 0.375 * q2)
      + 4 / 3 * gA2 p * gA2 p * (4 * mpi4 p / (w * w) - 11 / 4 * q2 - 9 * mpi2 p) - w * w)

/-- `chp_N3LO_2PE_VT_1loop_ci0`, F:2735-2746. -/
def lrrVT (p : PionData) (im : Int) (q2 k2 : ℝ) : ℝ :=
  let w := loopW p q2
  gA2 p * gA2 p * loopConst p 21 * mnucInv p im * mnucInv p im * (1 / 32) * loopL p q2 * (k2 + 0.625 * q2 + mpi4 p / (w * w))

/-- `chp_N3LO_2PE_Vs_1loop_ci0`, F:2946-2956. -/
def lrrVs (p : PionData) (im : Int) (q2 k2 : ℝ) : ℝ := -q2 * lrrVT p im q2 k2

/-- `chp_N3LO_2PE_WT_1loop_ci0`, F:2885-2896. -/
def lrrWT (p : PionData) (im : Int) (q2 : ℝ) : ℝ :=
  let w := loopW p q2
  mnucInv p im * mnucInv p im * loopConst p 21 * (1 / 1536) * loopL p q2 *
    (4 * gA2 p * gA2 p * (7 * mpi2 p + 17 / 4 * q2 + 4 * mpi4 p / (w * w)) - 32 * gA2 p * (mpi2 p + 7 / 16 * q2) + w * w)

/-- `chp_N3LO_2PE_Ws_1loop_ci0`, F:3011-3020. -/
def lrrWs (p : PionData) (im : Int) (q2 : ℝ) : ℝ := -q2 * lrrWT p im q2

/-- `chp_N3LO_2PE_VsigL_1loop_ci0`, F:3043-3051. -/
def lrrVsigL (p : PionData) (im : Int) (q2 : ℝ) : ℝ :=
  gA2 p * gA2 p * loopConst p 21 * mnucInv p im * mnucInv p im * (1 / 32) * loopL p q2

/-! ### Two-loop contributions -/

/-- `chp_N3LO_2PE_2loop_int_helper`, F:2452-2469. -/
def loopHelper (x : ℝ) : ℝ :=
  if x < 0.05 then
    let x2 := x * x
    let x4 := x2 * x2;
    -8 / 315 * x4 * x2 + 2 / 35 * x4 - 0.2 * x2 - 4 / 3
  else
    let x2i := 1 / (x * x)
    let A := Real.sqrt (1 + x2i)
    x2i - (1 + x2i) * A * Real.log (x * (1 + A))

/-- One entry of `chp_2PE_2loop_int_WC_DR_x_fact`, F:2487-2507. -/
def wcDREntry (r : LoopRules) (p : PionData) (z : ℝ) : ℝ :=
  let fact := 1 / (2048 * pi2 * pi2)
  let C1 := 2 * gA2 p * gA2 p / 3
  let z2 := z * z
  let zt := Real.sqrt (1 - z2)
  let D1 := gA2 p * (2 - z2)
  (r.x.map fun xw =>
    let y := xw.1 * zt
    let y2 := y * y
    let yz := y / z
    fact * xw.2 * zt * z * ((gA2 p - 1) * y2 - D1) *
      (-y2 + 2 * y * Real.sqrt (z2 + y2) * Real.log (yz + Real.sqrt (1 + yz * yz))
        + C1 * (2 - y2 - z2) * (loopHelper yz + 5 / 6))).sum

/-- One entry of `chp_2PE_2loop_int_WC_SFR_x_fact`, F:2527-2546. -/
def wcSFREntry (r : LoopRules) (p : PionData) (z : ℝ) : ℝ :=
  let c1 := -gA2 p ^ 3
  let c2 := gA2 p * gA2 p * (2 * gA2 p - 1)
  let z2 := z * z
  let zt := Real.sqrt (1 - z2)
  let cz1 := c1 * (2 - z2) ^ 2
  let cz2 := c2 * (2 - z2) * (1 - z2)
  (r.x.map fun xw => xw.2 * loopHelper (xw.1 * zt / z) * (cz1 + cz2 * xw.1 * xw.1)).sum

/-- One entry of `chp_2PE_2loop_int_VTS_x_fact`, F:2806-2822; `zw` is the point and weight of the `z` mesh. -/
def vtsEntry (r : LoopRules) (zw : ℝ × ℝ) : ℝ :=
  let fact := -1 / (1024 * pi2 * pi2)
  let z := zw.1
  let zt := Real.sqrt (1 - z * z)
  let zfact := fact * zw.2 * z * zt * (1 - z * z)
  (r.x.map fun xw => zfact * xw.2 * (1 - xw.1 * xw.1) * (loopHelper (xw.1 * zt / z) - 1 / 6)).sum

/-- The contents `chp_calculate_2PE_2loop_int_WC_DR_data` computes, F:2473-2513. -/
def wcDRTable (r : LoopRules) (p : PionData) : List ℝ := (r.z (zLow p)).map fun zw => wcDREntry r p zw.1

/-- The contents `chp_calculate_2PE_2loop_int_WC_SFR_data` computes, F:2516-2551. -/
def wcSFRTable (r : LoopRules) (p : PionData) : List ℝ := (r.z (zLow p)).map fun zw => wcSFREntry r p zw.1

/-- The contents `chp_calculate_2PE_2loop_int_VTS_data` computes, F:2796-2827. -/
def vtsTable (r : LoopRules) (p : PionData) : List ℝ := (r.z (zLow p)).map fun zw => vtsEntry r zw

/-- `chp_N3LO_2PE_Vc_2loop_DR`, F:2324-2334. -/
def l2VcDR (p : PionData) (q2 : ℝ) : ℝ :=
  let wt2 := loopWt2 p q2
  let A := loopA p q2
  3 * gA2 p * wt2 * A * loopConst p 21 * loopConst p 2 * (1 / 256) *
    ((mpi2 p + 2 * q2) * (2 * p.mpi 2 + wt2 * A) + 4 * gA2 p * p.mpi 2 * wt2)

/-- The seven coefficients of the expansion near `z = 1`, F:2354. -/
def vcTailCoeff : List ℝ :=
  [3593.92733718761, 5431.46429291511, 3420.6675650193, 1149.1163208075, 217.17174525573, 21.89317093303, 0.9197592690185]

/-- The part from 0.95 to 1 of the integral in `chp_N3LO_2PE_Vc_2loop_SFR`, F:2378-2384 (Horner's rule from the last coefficient). -/
def vcTail (p : PionData) (q2 : ℝ) : ℝ :=
  let mi := 1 / p.mpi 2
  let x := q2 * mi ^ 2
  vcTailCoeff.foldr (fun c s => x * s + c) 0 * mi ^ 2 * (1 / (4 + x)) ^ 7

/-- `chp_N3LO_2PE_Vc_2loop_SFR`, F:2342-2398. -/
def l2VcSFR (r : LoopRules) (p : PionData) (q2 : ℝ) : ℝ :=
  if p.loopInt = false then 0 else
  let L := zLow p
  let m := p.mpi 2
  let g := gA2 p
  let fact := fpiInv p ^ 6 * g * g * 3 / (pi2 * 2 ^ 15)
  let a1 := 4 * mpi2 p
  let d1 := (L - 1) * 32 * (1 + 4 * g) * mpi2 p * mpi2 p
  let d2 := -8 * (L - 1) * (-29 + L + L * L + 4 * (-11 + L + L * L) * g) * mpi2 p / 3
  let d3 := 2 * (L - 1) * (193 + 172 * g + L * (L + 1) * (-47 - 68 * g + 3 * L * L * (1 + 4 * g))) / 15
  let d4 := 32 * m * (1 + 4 * g) * mpi2 p
  let d5 := 64 * m * (1 + g)
  let s := vcTail p q2 + ((r.zVC L).map fun zw =>
    let z := zw.1
    let z2 := z * z
    zw.2 * (2 - z2) * (z2 - 8) * (z2 - 2) * z * 0.5 * Real.log ((1 + z) / (1 - z)) / (a1 + z2 * q2)).sum
  let x := 0.5 * Real.sqrt (q2 * (1 / m) ^ 2)
  fact * (s * q2 ^ 3 + d1 + q2 * (d2 + q2 * d3)
    + (0.5 * a1 + q2) * (d4 + d5 * q2) * (Real.arctan x - Real.arctan (L * x)) / Real.sqrt q2)

/-- `chp_N3LO_2PE_Wc_2loop_DR_a`, F:2434-2449. -/
def l2WcDRa (p : PionData) (q2 : ℝ) : ℝ :=
  let w := loopW p q2
  let L := loopL p q2
  let wt2 := loopWt2 p q2
  let g := gA2 p
  L * loopConst p 21 * fpiInv p * fpiInv p * (1 / Real.pi) * (1 / Real.pi) * (1 / 18432) *
    (192 * pi2 * fpi2 p * w * w * p.d3 * (2 * g * wt2 - 0.6 * (g - 1) * w * w)
      + (6 * g * wt2 - (g - 1) * w * w) * (384 * pi2 * fpi2 p * (wt2 * p.d12 + 4 * mpi2 p * p.d5)
        + L * (4 * mpi2 p * (1 + 2 * g) + q2 * (1 + 5 * g))
        - (q2 * (1 / 3) * (5 + 13 * g) + 8 * mpi2 p * (1 + 2 * g))))

/-- `chp_N3LO_2PE_Wc_2loop_DR_b`, F:2554-2587, with the table `tab`. -/
def l2WcDRb (r : LoopRules) (p : PionData) (tab : List ℝ) (q2 : ℝ) : ℝ :=
  fpiInv p ^ 6 * (((r.z (zLow p)).zip tab).map fun e =>
    q2 ^ 3 * (e.1.2 * e.2 / (4 * mpi2 p + e.1.1 ^ 2 * q2))).sum

/-- `chp_N3LO_2PE_Wc_2loop_SFR_a`, F:2590-2636, with the table `tab`. -/
def l2WcSFRa (r : LoopRules) (p : PionData) (tab : List ℝ) (q2 : ℝ) : ℝ :=
  let g := gA2 p
  let fact := fpiInv p ^ 6 / (pi2 * pi2 * 3 * 2 ^ 10)
  let a1 := -(1 + 2 * g) ^ 2 / 3
  let a2 := 1 + 6 * g + 8 * g * g
  let a3 := -g * (8 + 15 * g)
  let a4 := (-4 + 29 * g + 122 * g * g + 3 * g ^ 3) / 15
  let b1 := -(171 + 2 * g * (1 + g) * (327 + 49 * g)) / 450
  let b2 := (-73 + 1748 * g + 2549 * g * g + 726 * g ^ 3) / 450
  let b3 := -(-64 + 389 * g + 1782 * g * g + 1093 * g ^ 3) / 450
  fact * q2 ^ 3 * (((r.z (zLow p)).zip tab).map fun e =>
    let z := e.1.1
    let z2 := z ^ 2
    let z4 := z2 ^ 2
    let zt := Real.sqrt (1 - z2)
    e.1.2 * z / (4 * mpi2 p + z2 * q2) *
      ((a1 * z4 * z2 + a2 * z4 + a3 * z2 + a4) * Real.log ((1 + zt) / z) + (e.2 + b1 * z4 + b2 * z2 + b3) * zt)).sum

/-- `chp_N3LO_2PE_Wc_2loop_SFR_b`, F:2639-2681. -/
def l2WcSFRb (r : LoopRules) (p : PionData) (q2 : ℝ) : ℝ :=
  let g := gA2 p
  let fact1 := -p.d12 * fpiInv p ^ 4 / (pi2 * 96)
  let fact2 := -p.d3 * fpiInv p ^ 4 / (pi2 * 480)
  let fact3 := p.d5 * fpiInv p ^ 4 / (pi2 * 48)
  let sum := fun (f : ℝ → ℝ) => ((r.z (zLow p)).map fun zw =>
    let z2 := zw.1 ^ 2
    zw.2 * zw.1 * Real.sqrt (1 - z2) / (4 * mpi2 p + z2 * q2) * f z2).sum
  q2 ^ 3 * (fact1 * sum (fun z2 => (2 - z2) * ((g - 1) * (1 - z2) - 3 * g * (2 - z2)))
    + fact2 * sum (fun z2 => (1 - z2) * (3 * (g - 1) * (1 - z2) - 5 * g * (2 - z2)))
    + fact3 * sum (fun z2 => z2 * ((g - 1) * (1 - z2) - 3 * g * (2 - z2))))

/-- `chp_N3LO_2PE_VT_2loop_DR_a`, F:2749-2756. -/
def l2VTDRa (p : PionData) (q2 : ℝ) : ℝ :=
  let w := loopW p q2;
  -gA2 p * loopConst p 21 * (1 / 32) * p.d1415 * w * w * loopL p q2

/-- `chp_N3LO_2PE_VT_2loop_SFR_a`, F:2759-2791. -/
def l2VTSFRa (r : LoopRules) (p : PionData) (q2 : ℝ) : ℝ :=
  if p.loopInt = false then 0 else
  let fact := -p.d1415 * fpiInv p ^ 4 * gA2 p / (pi2 * 32)
  fact * q2 ^ 2 * ((r.z (zLow p)).map fun zw =>
    let z2 := zw.1 * zw.1
    zw.2 * zw.1 * Real.sqrt (1 - z2) * (1 - z2) / (4 * mpi2 p + z2 * q2)).sum

/-- `chp_N3LO_2PE_VT_2loop_b`, F:2830-2859, with the table `tab`. -/
def l2VTb (r : LoopRules) (p : PionData) (tab : List ℝ) (q2 : ℝ) : ℝ :=
  (((r.z (zLow p)).zip tab).map fun e => e.2 / (4 * mpi2 p + e.1.1 ^ 2 * q2)).sum * (p.gA * fpiInv p) ^ 6 * q2 ^ 2

/-- `chp_N3LO_2PE_WT_2loop_DR`, F:2899-2907. -/
def l2WTDR (p : PionData) (q2 : ℝ) : ℝ :=
  let w := loopW p q2
  let A := loopA p q2
  gA2 p * gA2 p * loopConst p 21 * fpiInv p * fpiInv p * (1 / 2048) * w * w * A *
    (w * w * A + 2 * p.mpi 2 * (1 + 2 * gA2 p))

/-- `chp_N3LO_2PE_WT_2loop_SFR`, F:2910-2943. -/
def l2WTSFR (r : LoopRules) (p : PionData) (q2 : ℝ) : ℝ :=
  if p.loopInt = false then 0 else
  let fact := -fpiInv p ^ 6 * gA2 p * gA2 p / (pi2 * 4096)
  fact * q2 ^ 2 * ((r.z (zLow p)).map fun zw =>
    let z := zw.1
    let z2 := z * z
    zw.2 * (1 - z2) * ((z2 - 1) * z * 0.5 * Real.log ((1 + z) / (1 - z)) + (1 + 2 * gA2 p) * z2) / (4 * mpi2 p + z2 * q2)).sum

/-- `chp_N3LO_2PE_Vs_2loop_DR_a`, F:2959-2967. -/
def l2VsDRa (p : PionData) (q2 : ℝ) : ℝ := -q2 * l2VTDRa p q2

/-- `chp_N3LO_2PE_Vs_2loop_SFR_a`, F:2970-2976. -/
def l2VsSFRa (r : LoopRules) (p : PionData) (q2 : ℝ) : ℝ := -q2 * l2VTSFRa r p q2

/-- `chp_N3LO_2PE_Vs_2loop_b`, F:2979-2985, with the table `tab`. -/
def l2Vsb (r : LoopRules) (p : PionData) (tab : List ℝ) (q2 : ℝ) : ℝ := -q2 * l2VTb r p tab q2

/-- `chp_N3LO_2PE_Ws_2loop_DR`, F:3023-3031. -/
def l2WsDR (p : PionData) (q2 : ℝ) : ℝ := -q2 * l2WTDR p q2

/-- `chp_N3LO_2PE_Ws_2loop_SFR`, F:3034-3040. -/
def l2WsSFR (r : LoopRules) (p : PionData) (q2 : ℝ) : ℝ := -q2 * l2WTSFR r p q2

/-! ### The tables kept between calls -/

/-- The three tables with their `…_data_set` flags, F:1253-1263: `none` = flag false. -/
structure LoopMem where
  vts : Option (List ℝ)
  wcDR : Option (List ℝ)
  wcSFR : Option (List ℝ)

/-- What `chp_setup_2PE_2loop_int_data` leaves, F:1800-1802 (and `initialize_chiral_potential`, F:3314-3316). -/
def LoopMem.empty : LoopMem := ⟨none, none, none⟩

/-- The table of the `VT`/`Vs` integrals, computed if not yet set, F:2802, 2826. -/
def useVTS (r : LoopRules) (p : PionData) (m : LoopMem) : List ℝ × LoopMem :=
  match m.vts with
  | some t => (t, m)
  | none => (vtsTable r p, { m with vts := some (vtsTable r p) })

/-- The same for `Wc` in dimensional regularisation, F:2482, 2511. -/
def useWcDR (r : LoopRules) (p : PionData) (m : LoopMem) : List ℝ × LoopMem :=
  match m.wcDR with
  | some t => (t, m)
  | none => (wcDRTable r p, { m with wcDR := some (wcDRTable r p) })

/-- The same for `Wc` with a spectral cutoff, F:2523, 2550. -/
def useWcSFR (r : LoopRules) (p : PionData) (m : LoopMem) : List ℝ × LoopMem :=
  match m.wcSFR with
  | some t => (t, m)
  | none => (wcSFRTable r p, { m with wcSFR := some (wcSFRTable r p) })

/-- The one-loop contributions, F:1602-1674. -/
def oneLoop (p : PionData) : TwoPE → Amp → Int → ℝ → ℝ → ℝ
  | .l0, .Wc, _, q2, _ => l0Wc p q2
  | .l0, .Vs, _, q2, _ => l0Vs p q2
  | .l0, .VT, _, q2, _ => l0VT p q2
  | .ld, .Vc, _, q2, _ => ldVc p q2
  | .ld, .WT, _, q2, _ => ldWT p q2
  | .ld, .Ws, _, q2, _ => ldWs p q2
  | .lr, .Vc, im, q2, _ => lrVc p im q2
  | .lr, .Wc, im, q2, _ => lrWc p im q2
  | .lr, .VLS, im, q2, _ => lrVLS p im q2
  | .lr, .WLS, im, q2, _ => lrWLS p im q2
  | .lr, .VT, im, q2, _ => lrVT p im q2
  | .lr, .Vs, im, q2, _ => lrVs p im q2
  | .lr, .WT, im, q2, _ => lrWT p im q2
  | .lr, .Ws, im, q2, _ => lrWs p im q2
  | .ldd, .Vc, _, q2, _ => lddVc p q2
  | .ldd, .WT, _, q2, _ => lddWT p q2
  | .ldd, .Ws, _, q2, _ => lddWs p q2
  | .ldr, .Vc, im, q2, _ => ldrVc p im q2
  | .ldr, .Wc, im, q2, _ => ldrWc p im q2
  | .ldr, .VLS, im, q2, _ => ldrVLS p im q2
  | .ldr, .WLS, im, q2, _ => ldrWLS p im q2
  | .ldr, .WT, im, q2, _ => ldrWT p im q2
  | .ldr, .Ws, im, q2, _ => ldrWs p im q2
  | .lrr, .Vc, im, q2, _ => lrrVc p im q2
  | .lrr, .Wc, im, q2, k2 => lrrWc p im q2 k2
  | .lrr, .VLS, im, q2, _ => lrrVLS p im q2
  | .lrr, .WLS, im, q2, _ => lrrWLS p im q2
  | .lrr, .VT, im, q2, k2 => lrrVT p im q2 k2
  | .lrr, .Vs, im, q2, k2 => lrrVs p im q2 k2
  | .lrr, .WT, im, q2, _ => lrrWT p im q2
  | .lrr, .Ws, im, q2, _ => lrrWs p im q2
  | .lrr, .VsigL, im, q2, _ => lrrVsigL p im q2
  | _, _, _, _, _ => 0

/-- The two-loop contributions in dimensional regularisation, F:1677-1686, with the tables kept in memory; without
`chiral_2PE_2loop_int` the parts that need a table are 0 and leave it alone (F:2566-2569, 2842-2845). -/
def twoLoopDR (r : LoopRules) (p : PionData) (a : Amp) (q2 : ℝ) (m : LoopMem) : ℝ × LoopMem :=
  match a with
  | .Vc => (l2VcDR p q2, m)
  | .Wc => if p.loopInt then (l2WcDRa p q2 + l2WcDRb r p (useWcDR r p m).1 q2, (useWcDR r p m).2) else (l2WcDRa p q2 + 0, m)
  | .VT => if p.loopInt then (l2VTDRa p q2 + l2VTb r p (useVTS r p m).1 q2, (useVTS r p m).2) else (l2VTDRa p q2 + 0, m)
  | .Vs => if p.loopInt then (l2VsDRa p q2 + l2Vsb r p (useVTS r p m).1 q2, (useVTS r p m).2) else (l2VsDRa p q2 + -q2 * 0, m)
  | .WT => (l2WTDR p q2, m)
  | .Ws => (l2WsDR p q2, m)
  | _ => (0, m)

/-- The two-loop contributions with a spectral cutoff, F:1687-1696. -/
def twoLoopSFR (r : LoopRules) (p : PionData) (a : Amp) (q2 : ℝ) (m : LoopMem) : ℝ × LoopMem :=
  match a with
  | .Vc => (l2VcSFR r p q2, m)
  | .Wc => if p.loopInt then (l2WcSFRa r p (useWcSFR r p m).1 q2 + l2WcSFRb r p q2, (useWcSFR r p m).2) else (0 + 0, m)
  | .VT => if p.loopInt then (l2VTSFRa r p q2 + l2VTb r p (useVTS r p m).1 q2, (useVTS r p m).2) else (l2VTSFRa r p q2 + 0, m)
  | .Vs => if p.loopInt then (l2VsSFRa r p q2 + l2Vsb r p (useVTS r p m).1 q2, (useVTS r p m).2)
      else (l2VsSFRa r p q2 + -q2 * 0, m)
  | .WT => (l2WTSFR r p q2, m)
  | .Ws => (l2WsSFR r p q2, m)
  | _ => (0, m)

/-- One call of a loop function at one mesh point, with the tables kept in memory, F:1602-1706. -/
def loopCall (r : LoopRules) (p : PionData) (t : TwoPE) (a : Amp) (im : Int) (q2 k2 : ℝ) (m : LoopMem) : ℝ × LoopMem :=
  match t with
  | .l2 => if p.sfr.isSome then twoLoopSFR r p a q2 m else twoLoopDR r p a q2 m
  | _ => (oneLoop p t a im q2 k2, m)

/-- The loop functions without memory: every call computes its table. -/
def loopProf (r : LoopRules) : Profiles := fun p t a im q2 k2 => (loopCall r p t a im q2 k2 LoopMem.empty).1

/-- What `chp_setup_2PE_2loop_int_data`, called by every preset (F:3579), does to the tables: it clears the three flags, F:1800-1802. -/
def setupLoopData (m : LoopMem) : LoopMem := { m with vts := none, wcDR := none, wcSFR := none }

/-- What happens to the loop functions in a program: a preset is chosen, or a loop function is evaluated. -/
inductive LoopEvent
  | preset (p : PionData)
  | eval (t : TwoPE) (a : Amp) (im : Int) (q2 k2 : ℝ)

/-- The values returned in a history, with the tables kept from call to call. -/
def loopHistory (r : LoopRules) : PionData → LoopMem → List LoopEvent → List ℝ
  | _, _, [] => []
  | _, mem, .preset p :: es => loopHistory r p (setupLoopData mem) es
  | p, mem, .eval t a im q2 k2 :: es =>
    (loopCall r p t a im q2 k2 mem).1 :: loopHistory r p (loopCall r p t a im q2 k2 mem).2 es

end TicTac
end
