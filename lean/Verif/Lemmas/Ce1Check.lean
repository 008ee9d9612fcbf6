import Verif.Lemmas.PolyCheck
/-! Kernel-checked sign conditions for the six rational pieces of `CE1`. -/
noncomputable section
namespace TicTac

/-- Numerator of the defect `r' − r + 1/x` of `r = P/Q`, over `x Q²`. -/
def defNum (P Q : List ℚ) : List ℚ :=
  let R := pMul (pDer P) Q
  let S := pMul P (pDer Q)
  pAdd (0 :: pAdd (pAdd R (pScale (-1) S)) (pScale (-1) (pMul P Q))) (pMul Q Q)
def defUp (η : ℚ) (P Q : List ℚ) : List ℚ := pAdd (pScale η (0 :: pMul Q Q)) (pScale (-1) (defNum P Q))
def defLo (η : ℚ) (P Q : List ℚ) : List ℚ := pAdd (pScale η (0 :: pMul Q Q)) (defNum P Q)

def pieceOk (d : Nat) (η a b : ℚ) (P Q : List ℚ) : Bool :=
  nonnegOn d a b (defUp η P Q) && nonnegOn d a b (defLo η P Q) && Q.all (0 ≤ ·)

theorem okA : pieceOk 8 4e-13 1 3 ceAP ceAQ = true := by decide +kernel
theorem okB : pieceOk 8 2e-14 3 6 ceBP ceBQ = true := by decide +kernel
theorem okC : pieceOk 8 1e-14 6 14 ceCP ceCQ = true := by decide +kernel
theorem okD : pieceOk 8 3e-15 14 25 ceDP ceDQ = true := by decide +kernel
theorem okE : pieceOk 8 1e-15 25 70 ceEP ceEQ = true := by decide +kernel
theorem okF : pieceOk 8 3e-16 70 165 ceFP ceFQ = true := by decide +kernel

end TicTac
end
