import Verif.Props.Program
import Verif.Props.PermutationExample
import Verif.Props.RunBreakupExample
/-! Non-vacuity of C115: a complete run of the program for one channel. -/
noncomputable section
namespace TicTac
open Spec Classical
namespace Example

def program : ProgramInput := { x := input, folder := "Out".toList, name := "nijmegen".toList, lines := [], cfg := ⟨true, 0, true, true, false, 0, 0⟩ }

theorem shallow {w : PWSpace} (hw : constructPW par = some w) {Nq : Nat} (hNq : 0 < Nq) (Eb : ℝ) (C : Matrix (Idx (w.block 0).length Nq grid.Np) (Idx (w.block 0).length Nq grid.Np) ℝ)
    (lam : Fin (w.block 0).length → Nat → ℝ) (hb : ScatteringBasis par.isoBreak grid pot (w.block 0) Nq Eb C lam) : -(Mn + Mp) < Eb := by
  obtain ⟨n1, n2⟩ := block_size hw
  have hch := (block_channel par_valid hw (show 0 < w.nChn by omega)).1
  have hdm : deuteronState ∈ w.block 0 := (hch.2 _).2 ⟨deuteron_allowed, rfl, rfl⟩
  obtain ⟨a, ha⟩ := List.get_of_mem hdm
  obtain ⟨e1, e2⟩ := hb.bound a (by rw [ha]; exact ⟨rfl, rfl, rfl⟩) (show 0 < 3 by norm_num)
  obtain ⟨x, hx, hxu⟩ := column hch hb (a, ⟨0, hNq⟩, ⟨0, show 0 < 3 by norm_num⟩)
  have e3 := (hxu x hx).1
  dsimp only at e3
  have := ((hOf_sign (s := (w.block 0).get x.1) x.2.2.2).2.1 (by rw [← e3, e1]; exact e2)).1
  rw [← e3, e1] at this
  rw [this]; norm_num [Mn, Mp]

/-- **Non-vacuity of C115.** -/
example : ∃ (pe : PotEnv) (fresh : Nat → ℝ) (w : PWSpace) (P123 : Nat → List (Entry ℝ)) (env : Int → Int → RunEnv) (files files' : Files) (ws : List Work),
    mainWork program.cfg w.nChn = some ws ∧ ws = [.p123 0, .solve 0 0] ∧ potOf pe (fetchPot fresh .nijmegen) = pot ∧
    (∀ chn psi, Work.solve chn psi ∈ ws → SolveHyps program w true gsl quad (P123 chn.toNat) (env chn psi) chn (potOf pe (fetchPot fresh .nijmegen))) ∧
    ProgramRun pe fresh (fun _ => none) program w P123 env files files' ∧ ∃ t, files' (amplitudeFileName program 0 0) = some (.elastic t) ∧ t ≠ [] := by
  obtain ⟨w, hw, hmem⟩ := C01_basis_exact par par_valid
  obtain ⟨n1, n2⟩ := block_size hw
  have hch := (block_channel par_valid hw (show 0 < w.nChn by omega)).1
  obtain ⟨P123, f, hf⟩ := fill_runs (w.block 0)
  have hst := C87_computed (fill_hyps (w.block 0)) hch hf
  obtain ⟨env, s, U, UBU, H, hrun, h1, -, h3, -⟩ := example_run hw P123 (by
    intro e he
    obtain ⟨r, k, e1, e2⟩ := hst.1 e he
    have a1 := flat_lt r
    have a2 := flat_lt k
    rw [← e1, n2] at a1
    rw [← e2, n2] at a2
    exact ⟨a1, a2⟩)
  have hwork : mainWork program.cfg w.nChn = some [.p123 0, .solve 0 0] := by rw [n1]; decide
  refine ⟨⟨[], default, [], pot⟩, fun _ => 0, w, fun _ => P123, fun _ _ => env, fun _ => none, _, _, hwork, rfl, rfl, ?_,
    ⟨hw, [(.solve 0 0, pot)], ?_, .solve (V := pot) (qOut := fun _ => 0) hrun rfl (.done _)⟩, ?_⟩
  · intro chn psi hm
    simp at hm
    obtain ⟨rfl, rfl⟩ := hm
    exact { base := H.toRunBase, nonneg := le_rfl, source := by unfold P123Source; rw [if_pos rfl]; exact ⟨_, f, fill_hyps _, hf⟩
            solver := Or.inr (Or.inl rfl), shallow := shallow hw (by decide) }
  · unfold runPotentials
    rw [show potKind program.name = some .nijmegen by decide, Option.bind_some, hwork]
    rfl
  · refine ⟨elasticTable s U, ?_, ?_⟩
    · have : elasticName program w 0 0 = amplitudeFileName program 0 0 := (run_name (V := pot) H.toRunBase le_rfl 0).1
      unfold writeFile
      rw [if_pos this.symm]
    · unfold elasticTable
      simp [h3]

def programB : ProgramInput := { program with x := inputB }

/-- **Non-vacuity of C115 with breakup.** A complete run above the breakup threshold that leaves both files; a cell is recorded. -/
example : ∃ (pe : PotEnv) (fresh : Nat → ℝ) (w : PWSpace) (P123 : Nat → List (Entry ℝ)) (env : Int → Int → RunEnv) (files files' : Files) (ws : List Work),
    mainWork programB.cfg w.nChn = some ws ∧ Work.solve 0 0 ∈ ws ∧ potOf pe (fetchPot fresh .nijmegen) = pot ∧ programB.x.breakup = true ∧
    (∀ chn psi, Work.solve chn psi ∈ ws → SolveHyps programB w true gsl quadB (P123 chn.toNat) (env chn psi) chn (potOf pe (fetchPot fresh .nijmegen))) ∧
    ProgramRun pe fresh (fun _ => none) programB w P123 env files files' ∧ ∃ t tb, files' (amplitudeFileName programB 0 0) = some (.elastic t) ∧ t ≠ [] ∧
      files' (breakupFileName programB 0 0) = some (.breakup tb) ∧ ∀ row ∈ t, 2 ≤ row.2.1 := by
  obtain ⟨w, hw, hmem⟩ := C01_basis_exact par par_valid
  obtain ⟨n1, n2⟩ := block_size hw
  obtain ⟨env, P123, s, U, UBU, HB, h1, h2, hsrc, hrun⟩ := runB hw
  have hE := energyB hw HB.lapack hrun
  obtain ⟨⟨v, off, hfb, hv⟩, hne, h3, h4⟩ := countedB hw HB h1 h2 hsrc hrun
  have hwork : mainWork programB.cfg w.nChn = some [.p123 0, .solve 0 0] := by rw [n1]; decide
  have H : ∀ chn psi, Work.solve chn psi ∈ [Work.p123 0, .solve 0 0] → SolveHyps programB w true gsl quadB P123 env chn pot := by
    intro chn psi hm
    simp at hm
    obtain ⟨rfl, rfl⟩ := hm
    exact { base := HB, nonneg := le_rfl, source := hsrc
            solver := Or.inr (Or.inr fun s U UBU h => Or.inr (countedB hw HB h1 h2 hsrc h).2.2.2), shallow := shallow hw (by decide) }
  have hEb : -(Mn + Mp) < s.swp.Eb := by rw [hE]; norm_num [Mn, Mp]
  obtain ⟨t, ht⟩ : ∃ t, breakupOf inputB w 0 s UBU (fun _ => 0) = some t := by
    obtain ⟨ents, hsort, hset, -⟩ := id hrun
    obtain ⟨M, bu, Gs, CT, VC, hM, hsw, hos, -⟩ := runSetup_ok hset
    obtain ⟨t', start, row, col, ht', -⟩ := C81_run HB.valid HB.basis HB.channel inputB.g.Np inputB.Nq inputB.q HB.qgrid (fun _ => 0) s.swp.e s.swp.Eb hEb inputB.Tlab s.os hos v off hfb
      fun n => (UBU n).getD 0
    refine ⟨t', ?_⟩
    unfold breakupOf
    rw [show findBreakup inputB.p inputB.g.Np inputB.Nq inputB.q s.swp.e s.swp.Eb (w.block 0) s.os.Ecom = .ok (v, off) from hfb]
    exact ht'
  have hsto : ∃ f1, storeResults programB w 0 0 s U UBU (fun _ => 0) (fun _ => none) = some f1 := by
    unfold storeResults
    dsimp only
    rw [if_pos (show programB.x.breakup = true from rfl), show breakupOf programB.x w (0 : Int).toNat s UBU (fun _ => 0) = some t from ht]
    exact ⟨_, rfl⟩
  obtain ⟨f1, hf1⟩ := hsto
  obtain ⟨s1, s2, -⟩ := stored hf1
  obtain ⟨m1, m2⟩ := run_name (X := programB) (w := w) (env := env) (chn := 0) (V := pot) HB le_rfl 0
  rw [m1] at s1
  rw [m2] at s2
  obtain ⟨tb, -, s2⟩ := s2 rfl
  refine ⟨⟨[], default, [], pot⟩, fun _ => 0, w, fun _ => P123, fun _ _ => env, fun _ => none, f1, _, hwork, by simp, rfl, rfl, H,
    ⟨hw, [(.solve 0 0, pot)], ?_, .solve (V := pot) (qOut := fun _ => 0) hrun hf1 (.done _)⟩, elasticTable s U, tb, s1, ?_, s2, ?_⟩
  · unfold runPotentials
    rw [show potKind programB.name = some .nijmegen by decide, Option.bind_some, hwork]
    rfl
  · have hl := C39_lengths (H 0 0 (by simp)) hrun hEb
    have := List.length_pos_iff.2 hne
    unfold elasticTable
    rw [ne_eq, List.map_eq_nil_iff, List.range_eq_nil]
    omega
  · intro row hr
    have hl := C39_lengths (H 0 0 (by simp)) hrun hEb
    obtain ⟨k, hk, rfl⟩ := List.mem_map.1 hr
    have hk := List.mem_range.1 hk
    dsimp only
    rw [List.getD_eq_getElem?_getD, List.getElem?_eq_getElem (show k < s.os.Ecom.length by omega)]
    have := h3 _ (List.getElem_mem (show k < s.os.Ecom.length by omega))
    rw [hE] at this
    simpa using this

end Example
end TicTac
end
