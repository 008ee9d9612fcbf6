import Verif.Lemmas.Run4
/-! C80: what the amplitudes reported for one channel are, from the user's input to `U_array`. -/
noncomputable section
namespace TicTac
open Spec
open Classical
open scoped Polynomial

/-- Hypotheses on the user's input and on the trusted library. -/
structure RunBase (x : RunInput) (env : RunEnv) (w : PWSpace) (chn : Nat) : Prop where
  basis : constructPW x.p = some w
  tensor : x.p.tensor = true
  valid : ValidTruncation x.p
  /-- quadrature, or no isospin breaking (C32 is false of the code otherwise) -/
  mid : x.g.mid = false ∨ x.p.isoBreak = false
  hermitian : Hermitian x.pot
  pgrid : ∀ i < x.g.Np, x.g.pWP i < x.g.pWP (i + 1)
  bins : 3 ≤ x.g.Np
  qgrid : IsGrid x.Nq x.q
  lapack : LapackContract env.diag
  channel : chn < w.nChn
  sched : env.sched.Perm (List.range (w.block chn).length)
  size : 0 < (w.block chn).length * x.Nq * x.g.Np ∧ (w.block chn).length * x.Nq * x.g.Np ≤ 2 ^ 28
  /-- the two-nucleon spectra of the given interaction have no degeneracy -/
  simple : ∀ Eb C lam, ScatteringBasis x.p.isoBreak x.g x.pot (w.block chn) x.Nq Eb C lam → Nondegenerate (w.block chn) x.g.Np lam

/-- The same with a permutation matrix given as a list of entries. -/
structure RunHyps (x : RunInput) (env : RunEnv) (w : PWSpace) (chn : Nat) (P123 : List (Entry ℝ)) : Prop extends RunBase x env w chn where
  entries : ∀ e ∈ P123, e.row < (w.block chn).length * x.Nq * x.g.Np ∧ e.col < (w.block chn).length * x.Nq * x.g.Np

theorem gArray_at (D : Nat) (Gs : List (Nat → ℂ)) (k : Nat) (hk : k < Gs.length) (i : Nat) (hi : i < D) : gArray D Gs (k * D + i) = Gs[k] i := by
  unfold gArray
  rw [radix_div hi, radix_mod hi, List.getElem?_eq_getElem hk]; rfl

/-- Everything that holds of the arrays handed to the solver. -/
theorem run_setup {x : RunInput} {env : RunEnv} {w : PWSpace} {chn : Nat} {P123 ents : List (Entry ℝ)} (H : RunHyps x env w chn P123)
    {s : RunSetup} (hs : ColMajorSorted ((w.block chn).length * x.Nq * x.g.Np) P123 ents) (hrun : runSetup x env w chn ents = .ok s)
    (hEb : -(Mn + Mp) < s.swp.Eb) :
    ∃ (deut : List (Fin (w.block chn).length)) (qidx : List (Fin x.Nq)), IsDeuteronList (w.block chn) deut ∧
      SolverInput x.p (w.block chn) x.Nq x.g.Np s.V s.swp.C P123 s.cfg deut qidx env.sched ∧ s.os.Tlab.length = qidx.length ∧
      s.os.Ecom.length = qidx.length ∧
      ∀ (k : Fin qidx.length) (T E : ℝ), s.os.Tlab[k]? = some T → s.os.Ecom[k]? = some E →
        IsOnShellPoint x.Nq x.q s.swp.Eb T E (qidx.get k) ∧
        FaddeevProblem x.p.isoBreak x.g x.pot (w.block chn) x.Nq x.q s.swp.Eb E (sparseMatrix _ x.Nq x.g.Np P123)
          (toC (kernelMatrix x.p (w.block chn) x.Nq x.g.Np s.V s.swp.C P123)) (fun y => s.cfg.G (k * s.cfg.D + flat y)) := by
  obtain ⟨M, bu, Gs, CT, VC, hM, hst, hos, hbu, hGs, hCT, hVC, -, hV, hcfg⟩ := runSetup_ok hrun
  obtain ⟨M', hM', hread⟩ := potArrays_read H.tensor H.valid H.basis H.mid x.pot env.junkV env.initV
  rw [hM] at hM'; cases hM'
  have hhold : HoldsPotential x.p x.g x.pot w.states (fun b i => M (b, i)) := hread
  obtain ⟨hch, hsub⟩ := block_channel H.valid H.basis H.channel
  obtain ⟨deut, hdeut, hdl⟩ := deut_list H.valid H.basis H.channel
  obtain ⟨-, ⟨bins, -, ht1, ht2, hpt⟩, hq1, hq2, hqi⟩ := C39_on_shell_rows x.Nq x.q H.qgrid s.swp.Eb hEb x.Tlab s.os hos
  obtain ⟨hGl, hGv⟩ := mapM_ok _ _ _ hGs
  have hqcom := (findOnShell_ok hos).2.1
  have hlt : ∀ i ∈ s.os.qIdx, i < x.Nq := by
    intro i hi
    obtain ⟨k, hk, rfl⟩ := List.mem_iff_getElem.1 hi
    exact (hqi k hk (by omega)).1
  set qidx : List (Fin x.Nq) := s.os.qIdx.attach.map fun i => ⟨i.1, hlt i.1 i.2⟩ with hqdef
  have hqmap : s.os.qIdx = qidx.map (·.val) := by
    rw [hqdef, List.map_map]; exact (List.attach_map_subtype_val _).symm
  have hqlen : qidx.length = s.os.qIdx.length := by rw [hqdef]; simp
  refine ⟨deut, qidx, hdeut, ?_, by omega, by omega, ?_⟩
  · refine { kernel := { ct := ?_, vc := ?_, sorted := by rw [hcfg]; exact hs, bounds := H.entries }, ptr := ?_, hn := ?_, hq := ?_, hp := ?_, deut_eq := ?_, qidx_eq := ?_, sched_perm := H.sched, buMono := ?_, buMax := ?_ }
    · exact ⟨env.junkCT, by rw [hcfg]; exact hCT⟩
    · exact ⟨env.junkVC, by rw [hcfg, hV]; exact hVC⟩
    · rw [hcfg]
    · rw [hcfg]
    · rw [hcfg]
    · rw [hcfg]
    · rw [hcfg]; exact hdl
    · rw [hcfg]; exact hqmap
    all_goals
      intro hb
      rw [hcfg] at hb ⊢
      dsimp only at hb ⊢
      unfold runBreakup at hbu
      rw [if_pos hb] at hbu
      simp only [bind, Except.bind] at hbu
      split at hbu
      · cases hbu
      rename_i b hfb
      simp only [pure, Except.pure, Except.ok.injEq] at hbu
      obtain ⟨c1, c2, c3, c4⟩ := C40_offsets x.p x.g.Np x.Nq x.q s.swp.e s.swp.Eb (w.block chn) s.os.Ecom b.1 b.2 hfb
      rw [← hbu]
      dsimp only
    · intro k hk
      obtain ⟨lo, hi, d1, d2, d3, _⟩ := c4 k (by omega)
      rw [List.getD_eq_getElem?_getD, List.getD_eq_getElem?_getD, d1, d2]
      exact d3
    · rw [show qidx.length = s.os.Ecom.length by omega, List.getD_eq_getElem?_getD, c3]
      exact le_refl _
  · intro k T E hT hE
    obtain ⟨kT, rfl⟩ := List.getElem?_eq_some_iff.1 hT
    obtain ⟨kE, rfl⟩ := List.getElem?_eq_some_iff.1 hE
    obtain ⟨p1, p2, p3⟩ := hpt k (by omega) kT kE
    obtain ⟨r1, r2, r3⟩ := hqi k (by omega) (by omega)
    have hqk : (qidx.get k : Nat) = s.os.qIdx[(k : Nat)]'(by omega) := by
      have : (qidx.map (·.val))[(k : Nat)]? = s.os.qIdx[(k : Nat)]? := by rw [← hqmap]
      rw [List.getElem?_map, List.getElem?_eq_getElem k.2, List.getElem?_eq_getElem (by omega)] at this
      simpa using this
    have hqc : s.os.qcom[(k : Nat)]'(by omega) = labEnergyToComMomentum (s.os.Tlab[(k : Nat)]) s.swp.Eb := by
      simp only [hqcom, List.getElem_map]
    refine ⟨⟨⟨_, p1, p2, p3⟩, ?_, ?_⟩, ?_⟩
    · rw [hqk, ← hqc]; exact r2
    · rw [hqk, ← hqc]; exact r3
    · have hbasis := basis_of_run H.tensor H.valid H.basis H.pgrid H.hermitian hhold H.lapack hst hch hsub x.Nq
      have hnd := H.simple _ _ _ hbasis
      have hbins := bins_of_run H.tensor H.valid H.basis H.pgrid H.hermitian hhold H.lapack hst hch hsub H.bins hnd
      have hGk := orStop_ok (hGv k kE (by omega))
      have hres := resolvent_of_bins H.tensor hch H.qgrid hEb hbins (fun a ha hn => (hbasis.bound a ha hn).2) p1 p3 hGk
      refine ⟨_, _, _, hbasis, hbins, ?_, ?_⟩
      · have hD : s.cfg.D = (w.block chn).length * x.Nq * x.g.Np := by rw [hcfg]; rfl
        have hGeq : (fun y : Idx (w.block chn).length x.Nq x.g.Np => s.cfg.G (k * s.cfg.D + flat y)) =
            fun y => (Gs[(k : Nat)]'(by omega)) (flat y) := by
          funext y
          rw [hD, show s.cfg.G = gArray ((w.block chn).length * x.Nq * x.g.Np) Gs by rw [hcfg], gArray_at _ _ _ (by omega) _ (flat_lt y)]
        rw [hGeq]
        exact hres
      · unfold effective kernelMatrix
        rw [hV, interaction_eq H.tensor hhold hch hsub x.Nq]

/-- **C80, direct solver.** Whatever LAPACK's choices, memory contents and thread order are: the reported number for energy `k`, deuteron
states `i`, `j` is the element of the unique solution of `X = A + A G X` between the deuteron at the on-shell bin, `A` and `G` being the
discretised Faddeev problem of the user's interaction at that energy, whenever that equation has a unique solution. -/
theorem C80_direct {x : RunInput} {env : RunEnv} {w : PWSpace} {chn : Nat} {P123 : List (Entry ℝ)} (H : RunHyps x env w chn P123)
    (hd : x.dense = true) {s : RunSetup} {U UBU : Nat → Option ℂ} (h : RunChannel x env w chn P123 s U UBU) (hEb : -(Mn + Mp) < s.swp.Eb) :
    ∃ deut : List (Fin (w.block chn).length), IsDeuteronList (w.block chn) deut ∧
    ∀ (k : Nat) (T E : ℝ), s.os.Tlab[k]? = some T → s.os.Ecom[k]? = some E →
      ∃ qb A G, IsOnShellPoint x.Nq x.q s.swp.Eb T E qb ∧
        FaddeevProblem x.p.isoBreak x.g x.pot (w.block chn) x.Nq x.q s.swp.Eb E (sparseMatrix _ x.Nq x.g.Np P123) A G ∧
        ((1 - A * Matrix.diagonal G).det ≠ 0 → ∃ X, (∀ Y, IsAmplitude A G Y ↔ Y = X) ∧
          ∀ i j : Fin deut.length, U (i * deut.length * s.os.Tlab.length + j * s.os.Tlab.length + k) =
            some (X (deut.get i, qb, ⟨0, by have := H.bins; omega⟩) (deut.get j, qb, ⟨0, by have := H.bins; omega⟩))) := by
  obtain ⟨ents, hsort, hrun, hsol⟩ := h
  obtain ⟨deut, qidx, hdl, hin, hl1, hl2, hk⟩ := run_setup H hsort hrun hEb
  refine ⟨deut, hdl, fun k T E hT hE => ?_⟩
  have hkl : k < qidx.length := by rw [← hl1]; exact (List.getElem?_eq_some_iff.1 hT).1
  obtain ⟨h1, h2⟩ := hk ⟨k, hkl⟩ T E hT hE
  refine ⟨_, _, _, h1, h2, fun hdet => ?_⟩
  unfold SolveFaddeev at hsol
  rw [if_pos hd] at hsol
  obtain ⟨⟨U', hU', rfl⟩, -⟩ := hsol
  have hch := (block_channel H.valid H.basis H.channel).1
  obtain ⟨X, hX, hel⟩ := C48_dense H.tensor hch (by have := H.bins; omega) hin H.size.1 H.size.2 U' hU' ⟨k, hkl⟩ hdet
  refine ⟨X, hX, fun i j => ?_⟩
  rw [← hel i j]
  unfold elNum
  rw [show s.cfg.nd = deut.length by unfold PadeCfg.nd; rw [hin.deut_eq, List.length_map],
    show s.cfg.nq = s.os.Tlab.length by unfold PadeCfg.nq; rw [hin.qidx_eq, List.length_map, hl1]]

/-- **C80, iterative solver without breakup.** Every reported number is the value at 1 of a diagonal Padé approximant, of order at most 14,
of the Neumann series `Σ zⁿ A (G A)ⁿ` of the same discretised Faddeev problem. -/
theorem C80_iterative {x : RunInput} {env : RunEnv} {w : PWSpace} {chn : Nat} {P123 : List (Entry ℝ)} (H : RunHyps x env w chn P123)
    (hd : x.dense = false) (hb : x.breakup = false) {s : RunSetup} {U UBU : Nat → Option ℂ} (h : RunChannel x env w chn P123 s U UBU)
    (hEb : -(Mn + Mp) < s.swp.Eb) :
    ∃ deut : List (Fin (w.block chn).length), IsDeuteronList (w.block chn) deut ∧
    ∀ (k : Nat) (T E : ℝ), s.os.Tlab[k]? = some T → s.os.Ecom[k]? = some E →
      ∃ qb A G, IsOnShellPoint x.Nq x.q s.swp.Eb T E qb ∧
        FaddeevProblem x.p.isoBreak x.g x.pot (w.block chn) x.Nq x.q s.swp.Eb E (sparseMatrix _ x.Nq x.g.Np P123) A G ∧
        ∀ i j : Fin deut.length, ∃ n ≤ 14, ∃ pp qq : ℂ[X],
          IsPade (fun m => neumannTerm A G m (deut.get i, qb, ⟨0, by have := H.bins; omega⟩) (deut.get j, qb, ⟨0, by have := H.bins; omega⟩)) n n pp qq ∧
          qq.eval 1 ≠ 0 ∧
          U (i * deut.length * s.os.Tlab.length + j * s.os.Tlab.length + k) = some (pp.eval 1 / qq.eval 1) := by
  obtain ⟨ents, hsort, hrun, hsol⟩ := h
  obtain ⟨deut, qidx, hdl, hin, hl1, hl2, hk⟩ := run_setup H hsort hrun hEb
  refine ⟨deut, hdl, fun k T E hT hE => ?_⟩
  have hkl : k < qidx.length := by rw [← hl1]; exact (List.getElem?_eq_some_iff.1 hT).1
  obtain ⟨h1, h2⟩ := hk ⟨k, hkl⟩ T E hT hE
  refine ⟨_, _, _, h1, h2, fun i j => ?_⟩
  unfold SolveFaddeev at hsol
  rw [if_neg (by simp [hd])] at hsol
  obtain ⟨sf, hsf, rfl, -⟩ := hsol
  have hch := (block_channel H.valid H.basis H.channel).1
  have hbc : s.cfg.breakup = false := by
    obtain ⟨_, _, _, _, _, _, _, _, _, _, _, _, _, _, hcfg⟩ := runSetup_ok hrun
    rw [hcfg]; exact hb
  obtain ⟨sf', hsf', hval⟩ := C47_elastic_complete H.tensor hch (by have := H.bins; omega) hin H.size.1 H.size.2 hbc env.pade
  rw [hsf] at hsf'; cases hsf'
  obtain ⟨u, hu, n, hn, hpa⟩ := hval i j ⟨k, hkl⟩
  obtain ⟨pp, qq, hP, hq1, hq2⟩ := C46_is_pade (by omega) hpa
  refine ⟨n, hn, pp, qq, hP, hq1, ?_⟩
  rw [← hq2, ← hu]
  unfold elNum
  rw [show s.cfg.nd = deut.length by unfold PadeCfg.nd; rw [hin.deut_eq, List.length_map],
    show s.cfg.nq = s.os.Tlab.length by unfold PadeCfg.nq; rw [hin.qidx_eq, List.length_map, hl1]]

/-- The program reaches the result: if the two-nucleon spectra pass the check for bound states (C37), the deuteron energy is realistic and
neighbouring q boundaries differ by 0.11 %, a run with the iterative solver and without breakup completes. -/
theorem C80_completes {x : RunInput} {env : RunEnv} {w : PWSpace} {chn : Nat} {P123 : List (Entry ℝ)} (H : RunHyps x env w chn P123)
    (hd : x.dense = false) (hb : x.breakup = false) (hq : ∀ i < x.Nq, 1.0011 * x.q i ≤ x.q (i + 1))
    (hst : ∀ M, potArrays x.p x.g x.pot env.junkV env.initV w.states = some M →
      ∃ st, makeSwpStates x.p x.g.Np x.g.pWP (fun b i => M (b, i)) env.diag env.garbage env.C0 0 w.states = .ok st ∧ -3 ≤ st.Eb ∧ st.Eb ≤ 0) :
    ∃ s U UBU, RunChannel x env w chn P123 s U UBU ∧ -(Mn + Mp) < s.swp.Eb := by
  obtain ⟨ents, hsort⟩ := exists_isSortedBy (fun e : Entry ℝ => e.col * ((w.block chn).length * x.Nq * x.g.Np) + e.row) P123
  obtain ⟨M, hM, -⟩ := potArrays_read H.tensor H.valid H.basis H.mid x.pot env.junkV env.initV
  obtain ⟨st, hrun, e1, e2⟩ := hst M hM
  obtain ⟨os, hos, -⟩ := C39_indices x.Nq x.q H.qgrid hq st.Eb e1 e2 x.Tlab
  have hEb : -(Mn + Mp) < st.Eb := by norm_num [Mn, Mp]; linarith
  obtain ⟨hch, hsub⟩ := block_channel H.valid H.basis H.channel
  have hG : ∀ E : ℝ, ∃ G, orStop (resolventArray x.p x.g.Np x.Nq x.q st.e (E + st.Eb) (w.block chn) env.G0) = .ok G := by
    intro E
    obtain ⟨G, hG, _⟩ := resolventArray_eq x.p H.tensor x.g.Np x.Nq x.q st.e (E + st.Eb) (w.block chn) (fun s hs => IsChannel.allowed hch hs) env.G0
    exact ⟨G, by rw [hG]; rfl⟩
  choose Gf hGf using hG
  have hGs := mapM_ok_of (fun E => orStop (resolventArray x.p x.g.Np x.Nq x.q st.e (E + st.Eb) (w.block chn) env.G0)) Gf os.Ecom (fun E _ => hGf E)
  obtain ⟨⟨CT, hCT⟩, -⟩ := C43_tables_exist H.tensor hch x.g.Np (fun b i => M (b, i)) st.C env.junkCT
  obtain ⟨-, ⟨VC, hVC⟩⟩ := C43_tables_exist H.tensor hch x.g.Np (fun b i => M (b, i)) st.C env.junkVC
  have hset : ∃ s, runSetup x env w chn ents = .ok s ∧ s.swp = st ∧ s.cfg.breakup = false := by
    unfold runSetup
    simp only [bind, Except.bind, hM, orStop, hrun, hos, runBreakup, hb, Bool.false_eq_true, if_false, pure, Except.pure, hGs, hCT, hVC]
    simp only [bind, Except.bind, orStop] at hGs
    rw [hGs]
    exact ⟨_, rfl, rfl, rfl⟩
  obtain ⟨s, hs, rfl, hbr⟩ := hset
  obtain ⟨deut, qidx, -, hin, -⟩ := run_setup H hsort hs hEb
  obtain ⟨sf, hsf, -⟩ := C47_elastic_complete H.tensor hch (by have := H.bins; omega) hin H.size.1 H.size.2 hbr env.pade
  refine ⟨s, padeU sf, padeUBU sf, ⟨ents, hsort, hs, ?_⟩, hEb⟩
  unfold SolveFaddeev
  rw [if_neg (by simp [hd])]
  exact ⟨sf, hsf, rfl, rfl⟩

end TicTac
end
