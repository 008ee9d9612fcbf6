import Verif.Model.Permutation
import Verif.Spec.Kernel
import Verif.Spec.PWStates
import Mathlib.Algebra.BigOperators.Finprod
import Mathlib.MeasureTheory.Integral.Bochner.Set
/-! The permutation operator P123 between wave packets, as a formula with unrestricted sums over angular momenta and an integral over the
hypermomentum, without tables and loops. -/
noncomputable section
namespace TicTac.Spec
open Classical

/-- Contract of GSL's functions: selection rules of the 3j and 9j symbols (triangle conditions, arguments doubled), and the layout of the
Legendre arrays. -/
structure GslContract (g : Gsl) : Prop where
  threeJ_sel : ∀ j1 j2 j3 m1 m2 m3 : Int, g.threeJ j1 j2 j3 m1 m2 m3 ≠ 0 →
    Couples j1 j2 j3 ∧ m1 + m2 + m3 = 0 ∧ |m1| ≤ j1 ∧ |m2| ≤ j2 ∧ |m3| ≤ j3
  nineJ_sel : ∀ a b c d e f h i j : Int, g.nineJ a b c d e f h i j ≠ 0 →
    Couples a b c ∧ Couples d e f ∧ Couples h i j ∧ Couples a d h ∧ Couples b e i ∧ Couples c f j
  plm_len : ∀ n l m : Nat, m ≤ l → l ≤ n → gslIdx l m < g.plmLen n
  plm_chunk : ∀ (n l m : Nat) (x : ℝ), m ≤ l → l ≤ n → g.plmChunk n x (gslIdx l m) = g.sph l m x

/-- Sign `(-1)^n`. -/
def sgn (n : Int) : ℝ := if n % 2 = 0 then 1 else -1

/-- Clebsch–Gordan coefficient of integer angular momenta, `(l1 m1 l2 m2 | L M)`, from the 3j symbol. -/
def clebsch (g : Gsl) (l1 m1 l2 m2 L M : Int) : ℝ :=
  sgn (l1 - l2 + M) * Real.sqrt (2 * (L : ℝ) + 1) * g.threeJ (2 * l1) (2 * l2) (2 * L) (2 * m1) (2 * m2) (-(2 * M))

/-- `Y_lm` at azimuth 0 as a function of the cosine: `Y_{l,-m} = (-1)^m Y_lm`. -/
def harmonic (g : Gsl) (l m : Int) (c : ℝ) : ℝ := if 0 ≤ m then g.sph l m c else sgn m * g.sph l (-m) c

/-- Spin–isospin–orbital recoupling coefficient of bra `a` and ket `b` for total orbital angular momentum `L`; zero between different total
isospins. -/
def recoupling (g : Gsl) (a b : PWState) (L : Nat) : ℝ :=
  if a.twoT3 = b.twoT3 then
    sgn (b.S + b.T) * Real.sqrt ((2 * a.J + 1) * (a.twoj + 1) * (2 * a.S + 1) * (2 * a.T + 1)
      * ((2 * b.J + 1) * (b.twoj + 1) * (2 * b.S + 1) * (2 * b.T + 1)))
    * g.sixJ 1 1 (2 * a.T).toNat 1 a.twoT3.toNat (2 * b.T).toNat
    * ∑ᶠ twoS : Nat, ((twoS : ℝ) + 1)
      * g.nineJ (2 * a.L) (2 * a.S) (2 * a.J) (2 * a.l) 1 a.twoj (2 * L) twoS a.twoJ3
      * g.nineJ (2 * b.L) (2 * b.S) (2 * b.J) (2 * b.l) 1 b.twoj (2 * L) twoS a.twoJ3
      * g.sixJ 1 1 (2 * a.S).toNat 1 twoS (2 * b.S).toNat
  else 0

/-- Magnitudes of the permuted momenta `p = |p'/2 + 3/4 q'|`, `q = |p' - q'/2|` for `cos(p', q') = x`, and their cosines with `p'`. -/
def permP (p q x : ℝ) : ℝ := Real.sqrt (p ^ 2 / 4 + 9 / 16 * q ^ 2 + 3 / 4 * p * q * x)
def permQ (p q x : ℝ) : ℝ := Real.sqrt (p ^ 2 + q ^ 2 / 4 - p * q * x)
def cosP (p q x : ℝ) : ℝ := -(p / 2 + 3 / 4 * q * x) / permP p q x
def cosQ (p q x : ℝ) : ℝ := (p - q * x / 2) / permQ p q x

/-- The geometric function of bra `a`, ket `b`. -/
def geometric (g : Gsl) (a b : PWState) (p q x : ℝ) : ℝ :=
  ∑ᶠ L : Nat, 8 * Real.pi ^ 2 * recoupling g a b L *
    ∑ᶠ M : Int, Real.sqrt ((2 * (a.L : ℝ) + 1) / (4 * Real.pi)) * clebsch g a.L 0 a.l M L M * sgn M * harmonic g a.l M x *
      ∑ᶠ M' : Int, clebsch g b.L M' b.l (M - M') L M * harmonic g b.L M' (cosP p q x) * harmonic g b.l (M - M') (cosQ p q x)

/-- The hypermomenta `k` for which bra momenta `(k sin φ, k cos φ)` and the permuted momenta lie in the two cells. -/
def hyperRange (ket bra : Cell) (s c x : ℝ) : Set ℝ :=
  {k | (bra.pl ≤ k * s ∧ k * s ≤ bra.pu) ∧ (bra.ql ≤ k * c ∧ k * c ≤ bra.qu) ∧
    (ket.pl ≤ k * permP s c x ∧ k * permP s c x ≤ ket.pu) ∧ (ket.ql ≤ k * permQ s c x ∧ k * permQ s c x ≤ ket.qu)}

/-- P123 between two normalised wave packets: quadrature over `x` and `φ` (nodes with weights), exact integral over `k`. -/
def p123Formula (g : Gsl) (a b : PWState) (bra ket : Cell) (xs phis : List (ℝ × ℝ)) : ℝ :=
  (xs.map fun x => (phis.map fun f =>
    x.2 * f.2 * (Real.sin f.1 * Real.cos f.1) * geometric g a b (Real.sin f.1) (Real.cos f.1) x.1
      / (permP (Real.sin f.1) (Real.cos f.1) x.1 * permQ (Real.sin f.1) (Real.cos f.1) x.1)
      * ∫ k in hyperRange ket bra (Real.sin f.1) (Real.cos f.1) x.1, k).sum).sum
    / Real.sqrt ((bra.pu - bra.pl) * (bra.qu - bra.ql) * ((ket.pu - ket.pl) * (ket.qu - ket.ql)))

/-- The angle `φ` of momenta `p = k sin φ`, `q = k cos φ`. -/
def hyperAngle (p q : ℝ) : ℝ := if q = 0 then Real.pi / 2 else Real.arctan (p / q)

/-- Derivative of the Legendre polynomial of degree `N`, from `(x² - 1) P_N' = N (x P_N - P_{N-1})`. -/
def legendreSlope (P : Int → ℝ → ℝ) (N : Nat) (x : ℝ) : ℝ := N * (x * P N x - P ((N : Int) - 1) x) / (x ^ 2 - 1)

/-- The Gauss–Legendre rule with points `z 0, …, z (N-1)` of `(-1, 1)`, carried over to the angles of a cell. -/
def cellRule (P : Int → ℝ → ℝ) (N : Nat) (z : Nat → ℝ) (c : Cell) : List (ℝ × ℝ) :=
  let lo := hyperAngle c.pl c.qu
  let hi := hyperAngle c.pu c.ql
  (List.range N).map fun (j : Nat) =>
    ((lo + hi) / 2 + (hi - lo) / 2 * z j, (hi - lo) / 2 * (2 / ((1 - z j ^ 2) * legendreSlope P N (z j) ^ 2)))

/-- The matrix of P123 in the basis of one channel; `phis q p` is the phi mesh of bra cell `(q, p)`. -/
def p123Operator (g : Gsl) (states : List PWState) (Nq Np : Nat) (q p : Nat → ℝ) (xs : List (ℝ × ℝ)) (phis : Nat → Nat → List (ℝ × ℝ)) :
    Matrix (Idx states.length Nq Np) (Idx states.length Nq Np) ℝ := fun r k =>
  p123Formula g (states.get r.1) (states.get k.1) ⟨p r.2.2, p (r.2.2 + 1), q r.2.1, q (r.2.1 + 1)⟩
    ⟨p k.2.2, p (k.2.2 + 1), q k.2.1, q (k.2.1 + 1)⟩ xs (phis r.2.1 r.2.2)

end TicTac.Spec
end
