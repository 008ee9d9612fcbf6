import Verif.Props.PermutationExample
/-! C135: quadratures without points. -/
noncomputable section
namespace TicTac
open Spec Classical

/-- The matrix of the rule without points is zero. -/
theorem gridOperator_no_points (g : Gsl) (w : WPGrid) (m : Quad) (states : List PWState) (h0 : m.Nx = 0 ∨ m.Nphi = 0) :
    gridOperator g w m states = 0 := by
  funext r k
  unfold gridOperator p123Operator p123Formula cellRule
  rcases h0 with h | h
  · simp [h]
  · simp only [h, List.range_zero, List.map_nil, List.sum_nil, List.map_const', List.sum_replicate, smul_zero, zero_div, Matrix.zero_apply]

/-- **C135, computed.** With no x points or no phi points the calculation stores no element, whatever grid and basis, threads and memory. -/
theorem C135_no_points {g : Gsl} {w : WPGrid} {m : Quad} {env : P123Env} {states : List PWState} (H : FillHyps g w m env states)
    {p : PWParams} {J P : Int} (hch : IsChannel p J P states) (h0 : m.Nx = 0 ∨ m.Nphi = 0) {P123 : List (Entry ℝ)} {f : H5File ℝ}
    (h : FillComputed g w m env states P123 f) : P123 = [] := by
  obtain ⟨⟨run⟩, -⟩ := h
  obtain ⟨-, h2, -, -⟩ := C85_permutation_matrix (H.p123 hch) run
  rcases P123 with _ | ⟨e, l⟩
  · rfl
  · exfalso
    obtain ⟨r, k, -, hne⟩ := h2 e (by simp)
    exact hne (congrFun (congrFun (gridOperator_no_points g w m states h0) r) k)

/-- **C135, read.** A later run that reads the stored file either stops or works with the zero matrix, whatever its own quadrature. -/
theorem C135_read {g : Gsl} {w₁ w : WPGrid} {m : Quad} {env : P123Env} {states₁ states : List PWState} (H : FillHyps g w₁ m env states₁)
    {p₁ p : PWParams} {J₁ P₁ J P : Int} (hch₁ : IsChannel p₁ J₁ P₁ states₁) (hch : IsChannel p J P states) (hne₁ : states₁ ≠ []) (hne : states ≠ [])
    (h0 : m.Nx = 0 ∨ m.Nphi = 0) {P123₁ P123 : List (Entry ℝ)} {f : H5File ℝ} (h₁ : FillComputed g w₁ m env states₁ P123₁ f)
    {junk : SparseArrays ℝ} (h : FillRead w states f junk P123) : sparseMatrix states.length w.Nq w.Np P123 = 0 := by
  rw [(C87_read H hch₁ hch hne₁ hne h₁ h).2, gridOperator_no_points g w m states h0]

namespace Example

/-- The quadrature of the example, without phi points. -/
def quad0 : Quad := { quad with Nphi := 0 }

def env0 (states : List PWState) : P123Env :=
  { p123Env states with phiOrder := phiWrites (input.grid.input quad0), ovOrder := overlapWrites (input.grid.input quad0) }

theorem fill_hyps0 (states : List PWState) : FillHyps gsl input.grid quad0 (env0 states) states where
  gsl := gsl_contract
  xIn := (fill_hyps states).xIn
  zIn := by intro f hf; exact absurd hf (Nat.not_lt_zero _)
  qgrid := (fill_hyps states).qgrid
  pgrid := (fill_hyps states).pgrid
  phiOrder := List.Perm.refl _
  ovOrder := List.Perm.refl _
  sixOrder := (fill_hyps states).sixOrder
  cgOrder := (fill_hyps states).cgOrder

/-- **Non-vacuity of C135.** A channel of the example with the deuteron state: the calculation without phi points ends, with no element, and its file is
accepted when read; with one phi point (`fill_runs`, `operator_nonzero`) the matrix is not zero. -/
theorem C135_example : ∃ (w : PWSpace) (f f' : H5File ℝ) (P123 : List (Entry ℝ)), IsChannel par 1 1 (w.block 0) ∧ w.block 0 ≠ [] ∧
    FillComputed gsl input.grid quad0 (env0 (w.block 0)) (w.block 0) [] f ∧ FillRead input.grid (w.block 0) f ⟨[], [], []⟩ [] ∧
    FillComputed gsl input.grid quad (p123Env (w.block 0)) (w.block 0) P123 f' ∧ P123 ≠ [] := by
  obtain ⟨w, hw, hmem⟩ := C01_basis_exact par par_valid
  obtain ⟨n1, n2⟩ := block_size hw
  have hch := (block_channel par_valid hw (show 0 < w.nChn by omega)).1
  have hne : w.block 0 ≠ [] := by intro h0; rw [h0] at n2; simp at n2
  set states := w.block 0
  set c := p123Cfg gsl (input.grid.input quad0) (env0 states) states (channelTwoJ states) with hc
  obtain ⟨out, ho⟩ := C85_completes gsl (input.grid.input quad0) (env0 states) states (channelTwoJ states) 1 5 (fun _ _ => none) (fun _ => List.range 2)
    (((List.range 2).flatMap (rowElems c)).map fun e => (0, e)) (by
      show ((List.range 1).flatMap fun _ => List.range 2).Perm (List.range 2)
      simp) (by
      refine ⟨by intro ev hev; rw [List.mem_map] at hev; obtain ⟨e, -, rfl⟩ := hev; exact Nat.one_pos, ?_⟩
      intro t ht
      have : t = 0 := by omega
      subst this
      rw [List.filter_eq_self.2 (by intro a ha; rw [List.mem_map] at ha; obtain ⟨e, -, rfl⟩ := ha; simp), List.map_map]
      simp [hc])
  have hf : FillComputed gsl input.grid quad0 (env0 states) states out _ := ⟨ho, storeP123_ok _ _ _⟩
  have hout := C135_no_points (fill_hyps0 states) hch (Or.inr rfl) hf
  subst hout
  obtain ⟨P123, f', hf'⟩ := fill_runs states
  have hwf : (input.grid.key states).WF := ⟨by simp [WPGrid.key], by simp [WPGrid.key], hne⟩
  obtain ⟨f, hfs, hr⟩ := C17_roundtrip (input.grid.key states) hwf (arraysOf []) ⟨[], [], []⟩ (by simp [arraysOf]) (by simp [arraysOf])
  have hf2 : FillComputed gsl input.grid quad0 (env0 states) states [] f := ⟨ho, hfs⟩
  refine ⟨w, f, f', P123, hch, hne, hf2, ⟨_, _, hr, (entries_arrays []).symm⟩, hf', ?_⟩
  have hst := C87_computed (fill_hyps states) hch hf'
  have hdm : deuteronState ∈ states := (hch.2 _).2 ⟨deuteron_allowed, rfl, rfl⟩
  obtain ⟨a, ha⟩ := List.get_of_mem hdm
  have := operator_nonzero _ a ha
  rw [← hst.2] at this
  rintro rfl
  unfold sparseMatrix at this
  simp at this

end Example
end TicTac
end
