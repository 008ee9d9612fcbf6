import Verif.Spec.NijmegenNum
/-! The numerical functions of the Nijmegen potential with errors. -/
noncomputable section
namespace TicTac
open Polynomial Spec Set

/-- `SEX` returns the integrals its comment promises (P:2249-2264) for these arguments up to an error `ε`. -/
structure SexNear (N : NijNum) (x y a : ℝ) (j kom : Nat) (ε : ℝ) : Prop where
  ern : ∀ n ≤ j, |(N.sex x y a j kom).2 (n + 1) - 1 / 2 * Real.exp (a ^ 2) * ∫ z in (-1 : ℝ)..1, (legendre n).eval z * Real.exp (-(y * (x - z)))| ≤ ε
  eln : kom = 1 → ∀ n ≤ j, |(N.sex x y a j kom).1 (n + 1) - 1 / 2 * Real.exp (a ^ 2) * ∫ z in (-1 : ℝ)..1, (legendre n).eval z * (Real.exp (-(y * (x - z))) / (x - z))| ≤ ε

/-- The numerical functions at a pair of momenta, with errors up to `ε` in `SEX` (for masses of 100 to 1200, cutoffs of 500 to 1000 and diffractive masses of 100 to 300,
all in MeV, and up to 14 waves) and in `CE1` (for arguments from 0.01 on); `FDEXP` is as in P:2135-2143. -/
structure NijNear (N : NijNum) (po pi ε : ℝ) : Prop where
  yuk : ∀ (m lam : ℝ) (j : Nat), 100 ≤ m → m ≤ 1200 → 500 ≤ lam → lam ≤ 1000 → j ≤ 13 →
    SexNear N (0.5 * (po * po + pi * pi) / (po * pi) + 0.5 * (m * m) / (po * pi)) (2 * (po * pi) / (lam * lam)) (m / lam) j 1 ε
  dif : ∀ (m : ℝ) (j : Nat), 100 ≤ m → m ≤ 300 → j ≤ 13 → SexNear N (0.5 * (po * po + pi * pi) / (po * pi)) (0.5 * (po * pi) / (m * m)) 0 j 2 ε
  ce1 : ∀ x : ℝ, 0.01 ≤ x → |N.ce1 x - Real.exp x * ∫ t in Ioi x, Real.exp (-t) / t| ≤ ε
  fdexp : ∀ x : ℝ, N.fdexp x = if x ≤ -100 then 0 else Real.exp x

end TicTac
end
