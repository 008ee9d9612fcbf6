import Verif.Lemmas.NijmegenArr
/-! The coefficients of the exchange routines are those of the exchanges. -/
noncomputable section
namespace TicTac
open Polynomial Spec MeasureTheory Set intervalIntegral

/-- `AMFACS` in terms of the two masses. -/
theorem amfacs_eq (a : Pair) (h1 : 0 < a.m1) (h2 : 0 < a.m2) :
    let m := amfacs a.m1 a.m2
    m.alf = a.alpha ∧ m.redm = a.reduced ∧ m.amypn = a.sum ∧ m.amypn2 = a.sum ^ 2 ∧ m.amymn2 = a.diffSq ∧ m.ay2pn2 = a.m1 ^ 2 + a.m2 ^ 2 ∧
    m.ay2mn2 = a.m1 ^ 2 - a.m2 ^ 2 ∧ m.amyn = a.prod ∧ m.amyni = 1 / a.prod ∧ m.amyni2 = 1 / a.prod ^ 2 ∧ m.aypni2 = a.invSq := by
  have h3 : a.m1 + a.m2 ≠ 0 := by positivity
  refine ⟨?_, rfl, rfl, ?_, ?_, ?_, ?_, rfl, ?_, ?_, ?_⟩
  · show (if a.m1 = a.m2 then (1 : ℝ) else 4 * (a.m1 * a.m2 / (a.m1 + a.m2)) / (a.m1 + a.m2)) = _
    unfold Pair.alpha Pair.prod Pair.sum
    split_ifs with h
    · rw [← h]; field_simp; ring
    · field_simp
  · show (a.m1 + a.m2) * (a.m1 + a.m2) = _; unfold Pair.sum; ring
  · show (a.m1 - a.m2) * (a.m1 - a.m2) = _; unfold Pair.diffSq; ring
  · show a.m1 * a.m1 + a.m2 * a.m2 = _; ring
  · show a.m1 * a.m1 - a.m2 * a.m2 = _; ring
  · show 1 / a.m1 * (1 / a.m2) = _; unfold Pair.prod; field_simp
  · show 1 / a.m1 * (1 / a.m2) * (1 / a.m1 * (1 / a.m2)) = _; unfold Pair.prod; field_simp
  · show 1 / a.m1 * (1 / a.m1) + 1 / a.m2 * (1 / a.m2) = _; unfold Pair.invSq; field_simp

theorem coefOK_ps (po pi f2 : ℝ) (P : ℝ → ℝ) : CoefOK (coefPs po pi f2) (facYuk po pi) po pi (pseudoscalar f2 P) := by
  constructor <;> simp only [coefPs, pseudoscalar] <;> ring

section
variable (po pi : ℝ) (a : Pair) (h1 : 0 < a.m1) (h2 : 0 < a.m2) (P : ℝ → ℝ)
include h1 h2

theorem coefOK_vec (g2 f2 gf : ℝ) : CoefOK (coefVec po pi (amfacs a.m1 a.m2) g2 f2 gf) (facYuk po pi) po pi (vectorNeutral a g2 f2 gf P) := by
  obtain ⟨e1, e2, e3, e4, e5, e6, e7, e8, e9, e10, e11⟩ := amfacs_eq a h1 h2
  have p1 : a.prod ≠ 0 := by unfold Pair.prod; positivity
  have p2 : a.alpha ≠ 0 := by unfold Pair.alpha Pair.prod Pair.sum; positivity
  have p3 : a.reduced ≠ 0 := by unfold Pair.reduced Pair.prod Pair.sum; positivity
  constructor <;> simp only [coefVec, vectorNeutral, e1, e2, e3, e4, e5, e6, e7, e8, e9, e10, e11] <;>
  (clear * - p1 p2 p3; generalize facYuk po pi = fac; generalize a.prod = pr at *; generalize a.alpha = al at *; generalize a.reduced = re at *; generalize a.sum = su at *
   generalize a.invSq = iv at *; field_simp; try ring)

theorem coefOK_vecC (g2 f2 gf lam : ℝ) : CoefOK (coefVecC po pi (amfacs a.m1 a.m2) g2 f2 gf lam) (facYuk po pi) po pi (vectorCharged a g2 f2 gf lam P) := by
  obtain ⟨e1, e2, e3, e4, e5, e6, e7, e8, e9, e10, e11⟩ := amfacs_eq a h1 h2
  have p1 : a.prod ≠ 0 := by unfold Pair.prod; positivity
  have p2 : a.alpha ≠ 0 := by unfold Pair.alpha Pair.prod Pair.sum; positivity
  have p3 : a.sum ≠ 0 := by unfold Pair.sum; positivity
  constructor <;> simp only [coefVecC, vectorCharged, e1, e2, e3, e4, e5, e6, e7, e8, e9, e10, e11] <;>
  (clear * - p1 p2 p3; generalize facYuk po pi = fac; generalize a.prod = pr at *; generalize a.alpha = al at *; generalize a.sum = su at *
   generalize a.invSq = iv at *; generalize a.diffSq = ds at *; field_simp; try ring)

theorem coefOK_sc (g2 : ℝ) : CoefOK (coefSc po pi (amfacs a.m1 a.m2) g2) (facYuk po pi) po pi (scalarNeutral a g2 P) := by
  obtain ⟨e1, e2, e3, e4, e5, e6, e7, e8, e9, e10, e11⟩ := amfacs_eq a h1 h2
  constructor <;> simp only [coefSc, scalarNeutral, e1, e2, e3, e4, e5, e6, e7, e8, e9, e10, e11] <;> ring

theorem coefOK_scC (g2 : ℝ) : CoefOK (coefScC po pi (amfacs a.m1 a.m2) g2) (facYuk po pi) po pi (scalarCharged a g2 P) := by
  obtain ⟨e1, e2, e3, e4, e5, e6, e7, e8, e9, e10, e11⟩ := amfacs_eq a h1 h2
  constructor <;> simp only [coefScC, scalarCharged, e1, e2, e3, e4, e5, e6, e7, e8, e9, e10, e11] <;> ring

theorem coefOK_dif (g2 : ℝ) : CoefOK (coefDif po pi (amfacs a.m1 a.m2) g2) facDif po pi (diffractive a g2 P) := by
  obtain ⟨e1, e2, e3, e4, e5, e6, e7, e8, e9, e10, e11⟩ := amfacs_eq a h1 h2
  constructor <;> simp only [coefDif, diffractive, scalarNeutral, e1, e2, e3, e4, e5, e6, e7, e8, e9, e10, e11] <;> ring

theorem coefOK_difC (g2 : ℝ) : CoefOK (coefDifC po pi (amfacs a.m1 a.m2) g2) facDif po pi (diffractiveCharged a g2 P) := by
  obtain ⟨e1, e2, e3, e4, e5, e6, e7, e8, e9, e10, e11⟩ := amfacs_eq a h1 h2
  constructor <;> simp only [coefDifC, diffractiveCharged, scalarCharged, e1, e2, e3, e4, e5, e6, e7, e8, e9, e10, e11] <;> ring
end

end TicTac
end
