import Verif.Props.PadeSolve
/-! Every sparse matrix occurs as a kernel: used to show that hypotheses are met and for counterexamples. -/
noncomputable section
namespace TicTac
open Spec
open Classical

/-- Channel matrices that are all the unit matrix. -/
def unitPot (Np : Nat) : Bool → Int → ℝ := fun b i =>
  if i % ((chnDim Np b * chnDim Np b : Nat) : Int) / (chnDim Np b : Nat) = i % ((chnDim Np b * chnDim Np b : Nat) : Int) % (chnDim Np b : Nat) then 1 else 0

theorem unitPot_eq (Np : Nat) (b : Bool) (n : Int) (r c : Nat) (hr : r < chnDim Np b) (hc : c < chnDim Np b) :
    unitPot Np b (n * (chnDim Np b * chnDim Np b : Nat) + (r * chnDim Np b + c : Nat)) = if r = c then 1 else 0 := by
  unfold unitPot
  generalize chnDim Np b = d at hr hc
  have h1 : (n * (d * d : Nat) + (r * d + c : Nat)) % ((d * d : Nat) : Int) = ((r * d + c : Nat) : Int) := by
    rw [Int.add_comm, Int.add_mul_emod_self_right]
    exact Int.emod_eq_of_lt (by omega) (by exact_mod_cast radix_lt hr hc)
  rw [h1]
  have h2 : ((r * d + c : Nat) : Int) / (d : Nat) = (r : Int) := by
    rw [← Int.natCast_ediv]
    have : (r * d + c) / d = r := radix_div hc
    rw [this]
  have h3 : ((r * d + c : Nat) : Int) % (d : Nat) = (c : Int) := by
    rw [← Int.natCast_emod]
    have : (r * d + c) % d = c := radix_mod hc
    rw [this]
  rw [h2, h3]
  simp

theorem twoBody_unit {p : PWParams} (ht : p.tensor = true) {twoJ3 P : Int} {states : List PWState} (h : IsChannel p twoJ3 P states) (Nq Np : Nat) :
    twoBody p states Nq Np (unitPot Np) = 1 := by
  ext x y
  rw [Matrix.one_apply]
  unfold twoBody
  have hx := IsChannel.allowed h (List.get_mem states x.1)
  have hy := IsChannel.allowed h (List.get_mem states y.1)
  obtain ⟨b, n, s1, s2, s3, _⟩ := kernelPtr_eq ht hx hy
  by_cases hc : x.2.1 = y.2.1 ∧ PairConnected (states.get x.1) (states.get y.1)
  · rw [if_pos hc]
    unfold channelMatrix
    rw [s1]
    dsimp only
    rw [unitPot_eq Np b n _ _ (chanPos_lt ht h s2 _) (chanPos_lt ht h (s3 hc.2) _)]
    by_cases hxy : x = y
    · rw [if_pos hxy, if_pos (by rw [hxy])]
    · rw [if_neg hxy, if_neg]
      intro he
      apply hxy
      rw [chanPos_eq, chanPos_eq, Nat.mul_comm, Nat.mul_comm Np] at he
      obtain ⟨e1, e2⟩ := radix_inj x.2.2.2 y.2.2.2 he
      have hself : PairConnected (states.get x.1) (states.get x.1) := ⟨⟨rfl, rfl, Or.inl rfl⟩, rfl, rfl⟩
      have hst := connected_unique hx hy ((h.2 _).1 (List.get_mem states x.1)).2 ((h.2 _).1 (List.get_mem states y.1)).2 hself hc.2 e1
      have hi : x.1 = y.1 := by
        have := (List.nodup_iff_injective_get.1 h.1) hst
        exact this
      exact Prod.ext hi (Prod.ext hc.1 (Fin.ext e2))
  · rw [if_neg hc, if_neg]
    rintro rfl
    exact hc ⟨rfl, ⟨rfl, rfl, Or.inl rfl⟩, rfl, rfl⟩

theorem kernel_unit {p : PWParams} (ht : p.tensor = true) {twoJ3 P : Int} {states : List PWState} (h : IsChannel p twoJ3 P states) (Nq Np : Nat) (P123 : List (Entry ℝ)) :
    kernelMatrix p states Nq Np (unitPot Np) (unitPot Np) P123 = (2 : ℝ) • sparseMatrix states.length Nq Np P123 := by
  unfold kernelMatrix
  rw [twoBody_unit ht h, Matrix.transpose_one, Matrix.one_mul, Matrix.mul_one, Matrix.mul_one]

/-- Arguments of the solver for any in-range sparse matrix. -/
theorem exists_solverInput {p : PWParams} (ht : p.tensor = true) {twoJ3 P : Int} {states : List PWState} (h : IsChannel p twoJ3 P states) (Nq Np : Nat)
    (V C : Bool → Int → ℝ) (P123 : List (Entry ℝ)) (hb : ∀ e ∈ P123, e.row < states.length * Nq * Np ∧ e.col < states.length * Nq * Np)
    (deut : List (Fin states.length)) (qidx : List (Fin Nq)) (G : Nat → ℂ) (breakup : Bool) (buStart : Nat → Nat) (nBU : Nat) (buState : Nat → Nat × Nat × Nat)
    (h1 : breakup = true → ∀ q < qidx.length, buStart q ≤ buStart (q + 1)) (h2 : breakup = true → buStart qidx.length ≤ nBU) :
    ∃ c : PadeCfg, SolverInput p states Nq Np V C P123 c deut qidx (List.range states.length) ∧ c.G = G ∧ c.breakup = breakup ∧
      c.buStart = buStart ∧ c.nBU = nBU ∧ c.buState = buState := by
  obtain ⟨⟨CT, g1⟩, ⟨VC, g2⟩⟩ := C43_tables_exist ht h Np V C (fun _ _ _ => 0)
  obtain ⟨out, ho⟩ := exists_isSortedBy (fun e : Entry ℝ => e.col * (states.length * Nq * Np) + e.row) P123
  refine ⟨⟨states.length, Nq, Np, CT, VC, out, csPtr (out.map (·.col)), G, qidx.map (·.val), deut.map (·.val), breakup, buStart, nBU, buState⟩,
    ⟨⟨⟨_, g1⟩, ⟨_, g2⟩, ho, hb⟩, rfl, rfl, rfl, rfl, rfl, rfl, List.Perm.refl _, h1, h2⟩, rfl, rfl, rfl, rfl, rfl⟩

end TicTac
end
