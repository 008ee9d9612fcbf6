import Verif.Props.Nijmegen
/-! C109: the Nijmegen routine is symmetric. -/
noncomputable section
namespace TicTac
open Spec

section
variable (N : NijNum) (J : Nat) (a b : ℝ)

theorem yukExchange_swap (lam m : ℝ) (jmax : Nat) (c : NijCoef) : yukExchange N J a b lam m jmax c = yukExchange N J b a lam m jmax c := by
  unfold yukExchange
  rw [mul_comm b a, add_comm (b * b), add_comm b a]

theorem difExchange_swap (m2 : ℝ) (jmax : Nat) (c : NijCoef) : difExchange N J a b m2 jmax c = difExchange N J b a m2 jmax c := by
  unfold difExchange
  rw [mul_comm b a, add_comm (b * b), add_comm b a]

theorem facYuk_swap : facYuk b a = facYuk a b := by unfold facYuk; rw [mul_comm b a]

theorem coefPs_swap (f : ℝ) : coefPs a b f = coefPs b a f := by
  unfold coefPs
  rw [facYuk_swap a b, mul_comm b a, add_comm (b * b)]

theorem coefVec_swap (m : AmCoef) (x y z : ℝ) : coefVec a b m x y z = coefVec b a m x y z := by
  unfold coefVec
  rw [facYuk_swap a b, mul_comm b a, add_comm (b * b)]
  dsimp only
  congr 1 <;> ring

theorem coefVecC_swap (m : AmCoef) (x y z v : ℝ) : coefVecC a b m x y z v = coefVecC b a m x y z v := by
  unfold coefVecC
  rw [facYuk_swap a b, mul_comm b a, add_comm (b * b)]
  dsimp only
  congr 1 <;> ring

theorem coefSc_swap (m : AmCoef) (x : ℝ) : coefSc a b m x = coefSc b a m x := by
  unfold coefSc
  rw [facYuk_swap a b, mul_comm b a, add_comm (b * b)]

theorem coefScC_swap (m : AmCoef) (x : ℝ) : coefScC a b m x = coefScC b a m x := by
  unfold coefScC
  rw [facYuk_swap a b, mul_comm b a, add_comm (b * b)]

theorem coefDif_swap (m : AmCoef) (x : ℝ) : coefDif a b m x = coefDif b a m x := by
  unfold coefDif
  rw [mul_comm b a, add_comm (b * b)]

theorem coefDifC_swap (m : AmCoef) (x : ℝ) : coefDifC a b m x = coefDifC b a m x := by
  unfold coefDifC
  rw [mul_comm b a, add_comm (b * b)]

theorem nijTerms_swap (p : NijPars) (k : NijCop) (m : AmCoef) (typ : NijType) : nijTerms N J a b p k m typ = nijTerms N J b a p k m typ := by
  unfold nijTerms
  simp only [yukExchange_swap N J a b, difExchange_swap N J a b, coefPs_swap a b, coefVec_swap a b, coefVecC_swap a b, coefSc_swap a b, coefScC_swap a b, coefDif_swap a b, coefDifC_swap a b]

theorem vmom_swap (p : PhName) (typ : NijType) : vmom N p typ a b = vmom N p typ b a := by
  unfold vmom
  dsimp only
  rw [nijTerms_swap]
end

/-- Exchanging the momenta transposes the matrix of a name. -/
theorem pnijmlsj_swap (p : PhName) (a b : ℝ) (A : PotMom) : let v := pnijmlsj p a b A; let w := pnijmlsj p b a A
    v.v11 = w.v11 ∧ v.v22 = w.v22 ∧ v.v12 = w.v21 ∧ v.v21 = w.v12 := by
  have s1 : ∀ j, vpotSinglet j a b A = vpotSinglet j b a A := fun j => by
    unfold vpotSinglet
    rw [mul_comm b a, mul_comm (b * b)]
  have s2 : ∀ j, vpotTriplet j a b A = vpotTriplet j b a A := fun j => by
    unfold vpotTriplet
    rw [mul_comm b a, mul_comm (b * b), add_comm (b * b)]
  have s3 : ∀ j, vpotUpper j a b A = vpotUpper j b a A := fun j => by
    unfold vpotUpper
    rw [mul_comm b a, mul_comm (b * b), add_comm (b * b)]
  have s4 : ∀ j, vpotLower j a b A = vpotLower j b a A := fun j => by
    unfold vpotLower
    rw [mul_comm b a, mul_comm (b * b), add_comm (b * b)]
  have s5 : ∀ j, vpotMix12 j a b A = vpotMix21 j b a A := fun j => by
    unfold vpotMix12 vpotMix21
    rw [mul_comm b a, mul_comm (b * b), add_comm (b * b)]
  have s6 : ∀ j, vpotMix21 j a b A = vpotMix12 j b a A := fun j => by
    unfold vpotMix12 vpotMix21
    rw [mul_comm b a, mul_comm (b * b), add_comm (b * b)]
  unfold pnijmlsj
  dsimp only
  rw [abs_sub_comm b a]
  split_ifs <;> simp [s1, s2, s3, s4, s5, s6]

theorem vnijm_swap (N : NijNum) (a b : ℝ) (c : Bool) (S : Int) (J : Nat) (tz : Int) (old : NijType) :
    let v := vnijm N a b c S J tz old; let w := vnijm N b a c S J tz old
    v 0 = w 0 ∧ v 1 = w 1 ∧ v 2 = w 2 ∧ v 3 = w 3 ∧ v 5 = w 4 ∧ v 4 = w 5 := by
  have key : ∀ (on : Bool) (i : Nat) (f g : VPot → ℝ), (∀ p A, f (pnijmlsj p b a A) = g (pnijmlsj p a b A)) →
      ((if J > 9 ∨ on = false then none else (nijName J i).map fun p => pnijmlsj p b a (vmom N p (nijTypeOf tz old) b a)).map f).getD 0 =
      ((if J > 9 ∨ on = false then none else (nijName J i).map fun p => pnijmlsj p a b (vmom N p (nijTypeOf tz old) a b)).map g).getD 0 := by
    intro on i f g h
    by_cases hc : J > 9 ∨ on = false
    · simp only [if_pos hc]; rfl
    · simp only [if_neg hc]
      cases nijName J i with
      | none => rfl
      | some p =>
        show f (pnijmlsj p b a (vmom N p (nijTypeOf tz old) b a)) = g (pnijmlsj p a b (vmom N p (nijTypeOf tz old) a b))
        rw [vmom_swap N b a p, h]
  have k11 := fun on i => key on i VPot.v11 VPot.v11 fun p A => (pnijmlsj_swap p b a A).1
  have k22 := fun on i => key on i VPot.v22 VPot.v22 fun p A => (pnijmlsj_swap p b a A).2.1
  have k12 := fun on i => key on i VPot.v12 VPot.v21 fun p A => (pnijmlsj_swap p b a A).2.2.1
  have k21 := fun on i => key on i VPot.v21 VPot.v12 fun p A => (pnijmlsj_swap p b a A).2.2.2
  unfold vnijm nijmCollect
  dsimp only
  by_cases h0 : J = 0
  · simp only [if_pos h0, k11, k12, k21]
    simp
  · simp only [if_neg h0, k11, k22, k12, k21]
    simp

/-- **C109.** Whatever its numerical functions return, the Nijmegen interaction is Hermitian: exchanging the momenta transposes the components. -/
theorem C109_hermitian (N : NijNum) (old : NijType) : Hermitian (nijmegenModel N old) := by
  intro qi qo c S J T Tz
  obtain ⟨h0, h1, h2, h3, h5, h4⟩ := vnijm_swap N qi qo c S J.toNat (-Tz) old
  refine ⟨?_, ?_, ?_, ?_, ?_⟩
  · simpa [nijmegenModel, nijmegenV, reorderExternal] using h0
  · simpa [nijmegenModel, nijmegenV, reorderExternal] using h1
  · simpa [nijmegenModel, nijmegenV, reorderExternal] using h3
  · simpa [nijmegenModel, nijmegenV, reorderExternal] using h2
  · simpa [nijmegenModel, nijmegenV, reorderExternal] using h5
/-- **C109 (stored matrices).** The stored matrix elements of bra and ket exchanged are equal. -/
theorem C109_symmetric_matrix (N : NijNum) (old : NijType) (p : PWParams) (ht : p.tensor = true) (hv : ValidTruncation p) (w : PWSpace) (h : constructPW p = some w) (g : PotGrid)
    (junk : Job → Nat → Nat → Six) (init : PotKey → ℝ) (mem : PotKey → ℝ) (hmem : potMatrices p g (nijmegenModel N old) junk init w.states = some mem)
    (a b : PWState) (ha : a ∈ w.states) (hb : b ∈ w.states) (hab : SameInteraction true a b) (sl : Slot) (hsl : slotOf p a = some sl) (i j : Nat) (hi : i < g.Np) (hj : j < g.Np) :
    mem (sl, blockOf p a, blockOf p b, i, j) = mem (sl, blockOf p b, blockOf p a, j, i) :=
  C31_potential_symmetric p ht hv w h g _ (C109_hermitian N old) junk init mem hmem a b ha hb hab sl hsl i j hi hj

end TicTac
end
