import Verif.Lemmas.NijmegenLin
import Verif.Spec.Potential
/-! The elements `nijm` returns are projections of the force whose amplitudes it is given. -/
noncomputable section
namespace TicTac
open Polynomial Spec MeasureTheory Set intervalIntegral

theorem nijName_singlet (J : Nat) (hJ : J ≤ 9) : ∃ p, nijName J 1 = some p ∧ waveOf p = ⟨1, 0, J, J, (J + 1) % 2⟩ ∧ p ≠ ⟨'3', 'P', 0⟩ := by
  interval_cases J <;> exact ⟨_, rfl, by decide, by decide⟩

theorem nijName_triplet (J : Nat) (h0 : 1 ≤ J) (hJ : J ≤ 9) : ∃ p, nijName J 2 = some p ∧ waveOf p = ⟨1, 1, J, J, J % 2⟩ ∧ p ≠ ⟨'3', 'P', 0⟩ := by
  interval_cases J <;> exact ⟨_, rfl, by decide, by decide⟩

theorem nijName_coupled (J : Nat) (h0 : 1 ≤ J) (hJ : J ≤ 9) : ∃ p, nijName J 3 = some p ∧ waveOf p = ⟨2, 1, J, J - 1, (J + 1) % 2⟩ := by
  interval_cases J <;> exact ⟨_, rfl, by decide⟩

/-- Which of the three calls of `nijm` a wave uses. -/
def nijKind (S : Int) (J : Nat) (Lo : Int) : Nat := if S = 0 then 1 else if Lo = J ∨ J = 0 then 2 else 3

section
variable {F : NijForce} (hF : NijCont F) (J : Nat) (po pi : ℝ) (hd0 : po ^ 2 + pi ^ 2 ≠ 0) (dirs : ℝ → Vec × Vec)
  (hd : ∀ z, |z| ≤ 1 → Dirs z (dirs z).1 (dirs z).2)
include hF hd

theorem proj_of {f : PotMom → ℝ} (hf : Lin f) (S Lo Li : Int) (e : ℝ)
    (h : ∀ z u v, Dirs z u v → e * f (wavesAt F J z) = if S = 0 then (legendre J).eval z * nijSinglet F po pi u v
      else contract (tripletStates J Lo Li u v) (nijTriplet F po pi u v)) :
    e * (f (potMomOf F J) * nijFa) = nijProjected dirs F po pi S J Lo Li / (2 * Real.pi) ^ 3 := by
  rw [hf.int hF J]
  unfold nijProjected nijFa
  have e1 : ∫ z in (-1 : ℝ)..1, (if S = 0 then (legendre J).eval z * nijSinglet F po pi (dirs z).1 (dirs z).2
      else contract (tripletStates J Lo Li (dirs z).1 (dirs z).2) (nijTriplet F po pi (dirs z).1 (dirs z).2)) = ∫ z in (-1 : ℝ)..1, e * f (wavesAt F J z) := by
    apply integral_congr
    intro z hz
    rw [uIcc_of_le (by norm_num)] at hz
    exact (h z _ _ (hd z (abs_le.2 hz))).symm
  rw [e1, intervalIntegral.integral_const_mul]
  have := Real.pi_pos.ne'
  field_simp

include hd0
/-- The element the program uses for a pair of waves, given amplitudes that belong to a force. -/
theorem nij_element (hJ : J ≤ 9) (hq : |po - pi| ≤ 30 * nijHbarc) (S Lo Li T : Int) (hw : Waves S J Lo Li T) (a : PhName → PotMom)
    (ha : ∀ p, nijName J (nijKind S J Lo) = some p → (a p).agree (potMomOf F J)) :
    phase Lo Li * reorderExternal (nijmCollect J (S = 0) (S = 1) (decide (Lo ≠ J)) fun _ p => pnijmlsj p po pi (a p)) (component S Lo Li J)
      = nijProjected dirs F po pi S J Lo Li / (2 * Real.pi) ^ 3 := by
  have hq' : ¬ |po - pi| > 30 * nijHbarc := not_lt.2 hq
  have hJ' : ¬ J > 9 := by omega
  obtain ⟨s1, s2, s3, s4, -⟩ := hw
  obtain ⟨s2, s2'⟩ := s2
  obtain ⟨s3, s3'⟩ := s3
  have w1 := abs_le.1 s2
  have w2 := abs_le.1 s3
  clear s2 s3
  rcases s1 with rfl | rfl
  · obtain rfl : Lo = J := by omega
    obtain rfl : Li = J := by omega
    obtain ⟨p, e1, e2, e3⟩ := nijName_singlet J hJ
    have hp := ha p (by simpa [nijKind] using e1)
    rw [← proj_of hF J po pi dirs hd (lin_singlet J po pi) 0 J J 1 (fun z u v h => by rw [one_mul, nij_singlet F J po pi z u v h]; rfl),
      ← (lin_singlet J po pi).congr hp]
    simp [phase, component, reorderExternal, nijmCollect, hJ', e1, pnijmlsj, e2, hq']
  · rcases Nat.eq_zero_or_pos J with h0 | h0
    · subst h0
      obtain rfl : Lo = 1 := by push_cast at *; omega
      obtain rfl : Li = 1 := by push_cast at *; omega
      have hp := ha ⟨'3', 'P', 0⟩ rfl
      rw [← proj_of hF 0 po pi dirs hd (lin_upper (0 : Nat) po pi) 1 1 1 1 (fun z u v h => by rw [one_mul, nij_upper F 0 po pi z u v h hd0]; simp),
        ← (lin_upper (0 : Nat) po pi).congr hp]
      have e2 : waveOf ⟨'3', 'P', 0⟩ = ⟨1, 1, 0, 1, 1⟩ := by decide
      simp [phase, component, reorderExternal, nijmCollect, nijName, pnijmlsj, e2, hq']
    · by_cases hL : Lo = J
      · subst hL
        obtain rfl : Li = J := by omega
        obtain ⟨p, e1, e2, e3⟩ := nijName_triplet J h0 hJ
        have hp := ha p (by simpa [nijKind] using e1)
        rw [← proj_of hF J po pi dirs hd (lin_triplet J po pi) 1 J J 1 (fun z u v h => by rw [one_mul, nij_uncoupled F J po pi z u v h h0 hd0]; simp),
          ← (lin_triplet J po pi).congr hp]
        simp [phase, component, reorderExternal, nijmCollect, hJ', e1, pnijmlsj, e2, hq', h0.ne']
      · obtain ⟨p, e1, e2⟩ := nijName_coupled J h0 hJ
        have hp := ha p (by simpa [nijKind, hL, h0.ne'] using e1)
        rcases (show Lo = J - 1 ∨ Lo = J + 1 by omega) with rfl | rfl <;> rcases (show Li = J - 1 ∨ Li = J + 1 by omega) with rfl | rfl
        · rw [← proj_of hF J po pi dirs hd (lin_lower J po pi) 1 (J - 1) (J - 1) 1 (fun z u v h => by rw [one_mul, nij_lower F J po pi z u v h h0 hd0]; simp),
            ← (lin_lower J po pi).congr hp]
          simp [phase, component, reorderExternal, nijmCollect, hJ', e1, pnijmlsj, e2, hq', h0.ne']
        · rw [← proj_of hF J po pi dirs hd (lin_mix21 J po pi) 1 (J - 1) (J + 1) (-1) (fun z u v h => by rw [neg_one_mul, (nij_mix F J po pi z u v h h0 hd0).2]; simp),
            ← (lin_mix21 J po pi).congr hp]
          have c1 : ¬ ((J : Int) - 1 = J + 1) := by omega
          have c2 : ¬ ((J : Int) + 1 < J - 1) := by omega
          have c3 : (J : Int) - 1 < J + 1 := by omega
          simp [phase, component, reorderExternal, nijmCollect, hJ', e1, pnijmlsj, e2, hq', h0.ne', c1, c2, c3]
        · rw [← proj_of hF J po pi dirs hd (lin_mix12 J po pi) 1 (J + 1) (J - 1) (-1) (fun z u v h => by rw [neg_one_mul, (nij_mix F J po pi z u v h h0 hd0).1]; simp),
            ← (lin_mix12 J po pi).congr hp]
          have c1 : ¬ ((J : Int) + 1 = J - 1) := by omega
          have c3 : (J : Int) - 1 < J + 1 := by omega
          simp [phase, component, reorderExternal, nijmCollect, hJ', e1, pnijmlsj, e2, hq', h0.ne', c1, c3]
        · rw [← proj_of hF J po pi dirs hd (lin_upper J po pi) 1 (J + 1) (J + 1) 1 (fun z u v h => by rw [one_mul, nij_upper F J po pi z u v h hd0]; simp),
            ← (lin_upper J po pi).congr hp]
          simp [phase, component, reorderExternal, nijmCollect, hJ', e1, pnijmlsj, e2, hq', h0.ne']
end

end TicTac
end
