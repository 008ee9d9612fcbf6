import Verif.Lemmas.Repro
import Verif.Lemmas.Repro2
import Verif.Props.Run
/-! C89: the results do not depend on LAPACK's choice of signs, on memory contents or on the order of threads. -/
noncomputable section
namespace TicTac
open Spec
open Classical

/-! ### change of signs of basis vectors -/
section
variable {ι : Type} [Fintype ι] [DecidableEq ι]

theorem diagSigns_sq {D : ι → ℂ} (hD : ∀ y, D y * D y = 1) : Matrix.diagonal D * Matrix.diagonal D = 1 := by
  rw [Matrix.diagonal_mul_diagonal, ← Matrix.diagonal_one]
  congr 1
  funext y; exact hD y

/-- Conjugation with signs of the terms of the Neumann series. -/
theorem neumann_signs {D : ι → ℂ} (hD : ∀ y, D y * D y = 1) (A : Matrix ι ι ℂ) (G : ι → ℂ) (m : Nat) :
    neumannTerm (Matrix.diagonal D * A * Matrix.diagonal D) G m = Matrix.diagonal D * neumannTerm A G m * Matrix.diagonal D := by
  have h1 := diagSigns_sq hD
  have hc : Matrix.diagonal G * Matrix.diagonal D = Matrix.diagonal D * Matrix.diagonal G := by
    rw [Matrix.diagonal_mul_diagonal, Matrix.diagonal_mul_diagonal]; congr 1; funext y; exact mul_comm _ _
  have hp : ∀ m, (Matrix.diagonal G * (Matrix.diagonal D * A * Matrix.diagonal D)) ^ m =
      Matrix.diagonal D * (Matrix.diagonal G * A) ^ m * Matrix.diagonal D := by
    intro m
    induction m with
    | zero => rw [pow_zero, pow_zero, Matrix.mul_one, h1]
    | succ m ih =>
      rw [pow_succ, ih, pow_succ]
      calc _ = Matrix.diagonal D * (Matrix.diagonal G * A) ^ m * (Matrix.diagonal D * (Matrix.diagonal G * Matrix.diagonal D)) * A * Matrix.diagonal D := by
            simp only [Matrix.mul_assoc]
        _ = _ := by rw [hc, ← Matrix.mul_assoc (Matrix.diagonal D) (Matrix.diagonal D), h1, Matrix.one_mul]; simp only [Matrix.mul_assoc]
  unfold neumannTerm
  rw [hp]
  calc _ = Matrix.diagonal D * A * (Matrix.diagonal D * Matrix.diagonal D) * (Matrix.diagonal G * A) ^ m * Matrix.diagonal D := by simp only [Matrix.mul_assoc]
    _ = _ := by rw [h1, Matrix.mul_one]; simp only [Matrix.mul_assoc]

theorem amplitude_signs {D : ι → ℂ} (hD : ∀ y, D y * D y = 1) {A : Matrix ι ι ℂ} {G : ι → ℂ} {X : Matrix ι ι ℂ} (h : IsAmplitude A G X) :
    IsAmplitude (Matrix.diagonal D * A * Matrix.diagonal D) G (Matrix.diagonal D * X * Matrix.diagonal D) := by
  have h1 := diagSigns_sq hD
  have hc : Matrix.diagonal D * Matrix.diagonal G * Matrix.diagonal D = Matrix.diagonal G := by
    rw [Matrix.diagonal_mul_diagonal, Matrix.diagonal_mul_diagonal]; congr 1; funext y
    rw [mul_right_comm, hD, one_mul]
  unfold IsAmplitude at *
  calc _ = Matrix.diagonal D * (A + A * Matrix.diagonal G * X) * Matrix.diagonal D := by rw [← h]
    _ = Matrix.diagonal D * A * Matrix.diagonal D + Matrix.diagonal D * A * (Matrix.diagonal D * Matrix.diagonal G * Matrix.diagonal D) * X * Matrix.diagonal D := by
        rw [hc, Matrix.mul_add, Matrix.add_mul]; simp only [Matrix.mul_assoc]
    _ = _ := by simp only [Matrix.mul_assoc]

theorem det_signs {D : ι → ℂ} (hD : ∀ y, D y * D y = 1) {A : Matrix ι ι ℂ} {G : ι → ℂ} (h : (1 - A * Matrix.diagonal G).det ≠ 0) :
    (1 - Matrix.diagonal D * A * Matrix.diagonal D * Matrix.diagonal G).det ≠ 0 := by
  have h1 := diagSigns_sq hD
  have hc : Matrix.diagonal D * Matrix.diagonal G = Matrix.diagonal G * Matrix.diagonal D := by
    rw [Matrix.diagonal_mul_diagonal, Matrix.diagonal_mul_diagonal]; congr 1; funext y; exact mul_comm _ _
  have : 1 - Matrix.diagonal D * A * Matrix.diagonal D * Matrix.diagonal G = Matrix.diagonal D * (1 - A * Matrix.diagonal G) * Matrix.diagonal D := by
    rw [Matrix.mul_sub, Matrix.sub_mul, Matrix.mul_one, h1, Matrix.mul_assoc (Matrix.diagonal D * A), hc]; simp only [Matrix.mul_assoc]
  rw [this, Matrix.det_mul, Matrix.det_mul, mul_right_comm, ← Matrix.det_mul, h1, Matrix.det_one, one_mul]
  exact h

end

/-- What two runs on the same input have in common before the equations are solved. -/
theorem two_setups {x : RunInput} {env env' : RunEnv} {w : PWSpace} {chn : Nat} {P123 P123' ents ents' : List (Entry ℝ)} (H : RunHyps x env w chn P123)
    (H' : RunHyps x env' w chn P123') (hP : sparseMatrix (w.block chn).length x.Nq x.g.Np P123 = sparseMatrix (w.block chn).length x.Nq x.g.Np P123')
    {s s' : RunSetup} (hrun : runSetup x env w chn ents = .ok s) (hrun' : runSetup x env' w chn ents' = .ok s') :
    s.swp.Eb = s'.swp.Eb ∧ s.os = s'.os ∧
    (∃ D : Idx (w.block chn).length x.Nq x.g.Np → ℝ, (∀ y, D y = 1 ∨ D y = -1) ∧
      kernelMatrix x.p (w.block chn) x.Nq x.g.Np s'.V s'.swp.C P123' =
        Matrix.diagonal D * kernelMatrix x.p (w.block chn) x.Nq x.g.Np s.V s.swp.C P123 * Matrix.diagonal D ∧
      ∀ y z : Idx (w.block chn).length x.Nq x.g.Np, IsDeuteronS ((w.block chn).get y.1) → IsDeuteronS ((w.block chn).get z.1) →
        (y.2.2 : Nat) = 0 → (z.2.2 : Nat) = 0 → D y = D z) ∧
    ∀ k < s.os.Ecom.length, ∀ y : Idx (w.block chn).length x.Nq x.g.Np, s.cfg.G (k * s.cfg.D + flat y) = s'.cfg.G (k * s'.cfg.D + flat y) := by
  obtain ⟨M, bu, Gs, CT, VC, hM, hst, hos, -, hGs, -, -, -, hV, hcfg⟩ := runSetup_ok hrun
  obtain ⟨M', bu', Gs', CT', VC', hM', hst', hos', -, hGs', -, -, -, hV', hcfg'⟩ := runSetup_ok hrun'
  obtain ⟨M0, hM0, hread⟩ := potArrays_read H.tensor H.valid H.basis H.mid x.pot env.junkV env.initV
  rw [hM] at hM0; cases hM0
  obtain ⟨M0, hM0, hread'⟩ := potArrays_read H.tensor H.valid H.basis H.mid x.pot env'.junkV env'.initV
  rw [hM'] at hM0; cases hM0
  have hhold : HoldsPotential x.p x.g x.pot w.states (fun b i => M (b, i)) := hread
  have hhold' : HoldsPotential x.p x.g x.pot w.states (fun b i => M' (b, i)) := hread'
  obtain ⟨hch, hsub⟩ := block_channel H.valid H.basis H.channel
  have hbins := H.bins
  have hEb := eb_same H.tensor H.valid H.basis H.pgrid H.hermitian hhold hhold' H.lapack H'.lapack hst hst' (by omega)
  have hOS : s.os = s'.os := by
    rw [hEb, hos'] at hos
    exact (Except.ok.inj hos).symm
  have hbasis := basis_of_run H.tensor H.valid H.basis H.pgrid H.hermitian hhold H.lapack hst hch hsub x.Nq
  have hnd := H.simple _ _ _ hbasis
  obtain ⟨D, d1, d2, d3⟩ := basis_same H.tensor H.valid H.basis H.pgrid H.hermitian hhold hhold' H.lapack H'.lapack hst hst' hch hsub hnd x.Nq
  refine ⟨hEb, hOS, ⟨D, d1, ?_, d3⟩, ?_⟩
  · unfold kernelMatrix
    rw [hV, hV', interaction_eq H.tensor hhold hch hsub x.Nq, interaction_eq H.tensor hhold' hch hsub x.Nq, d2, hP, Matrix.transpose_mul, Matrix.diagonal_transpose]
    simp only [Matrix.mul_smul, Matrix.smul_mul, Matrix.mul_assoc]
  · intro k hk y
    have hedge := edges_same H.tensor H.valid H.basis H.pgrid H.hermitian hhold hhold' H.lapack H'.lapack hst hst' (by omega)
    obtain ⟨hl, hval⟩ := mapM_ok _ _ _ hGs
    obtain ⟨hl', hval'⟩ := mapM_ok _ _ _ hGs'
    have hk' : k < s'.os.Ecom.length := by rw [← hOS]; exact hk
    have g1 := orStop_ok (hval k hk (by omega))
    have g1' := orStop_ok (hval' k hk' (by omega))
    have hDeq : s.cfg.D = (w.block chn).length * x.Nq * x.g.Np := by rw [hcfg]; rfl
    have hDeq' : s'.cfg.D = (w.block chn).length * x.Nq * x.g.Np := by rw [hcfg']; rfl
    rw [hDeq, hDeq', show s.cfg.G = gArray ((w.block chn).length * x.Nq * x.g.Np) Gs by rw [hcfg],
      show s'.cfg.G = gArray ((w.block chn).length * x.Nq * x.g.Np) Gs' by rw [hcfg'], gArray_at _ _ _ (by omega) _ (flat_lt y), gArray_at _ _ _ (by omega) _ (flat_lt y)]
    obtain ⟨G, hG, v⟩ := resolventArray_eq x.p H.tensor x.g.Np x.Nq x.q s.swp.e (s.os.Ecom[k] + s.swp.Eb) (w.block chn) (fun s hs => IsChannel.allowed hch hs) env.G0
    obtain ⟨G', hG', v'⟩ := resolventArray_eq x.p H.tensor x.g.Np x.Nq x.q s'.swp.e (s'.os.Ecom[k] + s'.swp.Eb) (w.block chn) (fun s hs => IsChannel.allowed hch hs) env'.G0
    rw [g1] at hG; rw [g1'] at hG'
    rw [Option.some.inj hG, Option.some.inj hG']
    obtain ⟨b, n, hsl, e1⟩ := v y.1 y.1.2 y.2.1 y.2.1.2 y.2.2 y.2.2.2
    obtain ⟨b', n', hsl', e1'⟩ := v' y.1 y.1.2 y.2.1 y.2.1.2 y.2.2 y.2.2.2
    rw [hsl] at hsl'; cases hsl'
    obtain ⟨b2, n2, t1, -, t3, -⟩ := slot_info H.tensor hch y.1 y.1 ⟨⟨rfl, rfl, Or.inl rfl⟩, rfl, rfl⟩
    rw [show slotOf x.p ((w.block chn).get y.1) = some (b, n) from hsl] at t1; cases t1
    dsimp only at e1 e1'
    have hy := y.2.2.2
    have key : ∀ j : Nat, j ≤ x.g.Np → s.swp.e b (n * (eLen x.g.Np b : Nat) + (if SecondMember (w.block chn)[(y.1 : Nat)] then ((x.g.Np + 1 : Nat) : Int) else 0) + j) =
        s'.swp.e b (n * (eLen x.g.Np b : Nat) + (if SecondMember (w.block chn)[(y.1 : Nat)] then ((x.g.Np + 1 : Nat) : Int) else 0) + j) := by
      intro j hj
      by_cases hsec : SecondMember (w.block chn)[(y.1 : Nat)]
      · have hb := t3 hsec
        have := hedge _ (hsub _ (List.get_mem _ y.1)) hsl (x.g.Np + 1 + j) (by unfold eLen; rw [if_pos hb]; omega)
        rw [if_pos hsec, add_assoc]
        push_cast at this ⊢
        exact this
      · have := hedge _ (hsub _ (List.get_mem _ y.1)) hsl j (by unfold eLen; split <;> omega)
        rw [if_neg hsec, add_zero]
        exact this
    unfold flat
    rw [e1, e1']
    have k1 := key y.2.2 hy.le
    have k2 := key (y.2.2 + 1) hy
    push_cast at k1 k2 ⊢
    rw [add_assoc _ (y.2.2 : Int) 1, k1, k2]
    have : s.os.Ecom[k] + s.swp.Eb = s'.os.Ecom[k] + s'.swp.Eb := by
      rw [hEb]; congr 1; simp only [hOS]
    rw [this]

/-- The arrays of two runs as seen by the solver: same deuteron states, same on-shell bins, kernels that differ by signs, equal resolvents. -/
theorem two_runs {x : RunInput} {env env' : RunEnv} {w : PWSpace} {chn : Nat} {P123 P123' ents ents' : List (Entry ℝ)} (H : RunHyps x env w chn P123)
    (H' : RunHyps x env' w chn P123') (hP : sparseMatrix (w.block chn).length x.Nq x.g.Np P123 = sparseMatrix (w.block chn).length x.Nq x.g.Np P123')
    {s s' : RunSetup} (hs : ColMajorSorted ((w.block chn).length * x.Nq * x.g.Np) P123 ents) (hs' : ColMajorSorted ((w.block chn).length * x.Nq * x.g.Np) P123' ents')
    (hrun : runSetup x env w chn ents = .ok s) (hrun' : runSetup x env' w chn ents' = .ok s') (hEb : -(Mn + Mp) < s.swp.Eb) :
    ∃ (deut : List (Fin (w.block chn).length)) (qidx : List (Fin x.Nq)) (D : Idx (w.block chn).length x.Nq x.g.Np → ℂ), IsDeuteronList (w.block chn) deut ∧
      SolverInput x.p (w.block chn) x.Nq x.g.Np s.V s.swp.C P123 s.cfg deut qidx env.sched ∧
      SolverInput x.p (w.block chn) x.Nq x.g.Np s'.V s'.swp.C P123' s'.cfg deut qidx env'.sched ∧
      s.os.Tlab.length = qidx.length ∧ s.os.Ecom.length = qidx.length ∧
      (∀ y, D y * D y = 1) ∧
      toC (kernelMatrix x.p (w.block chn) x.Nq x.g.Np s'.V s'.swp.C P123') =
        Matrix.diagonal D * toC (kernelMatrix x.p (w.block chn) x.Nq x.g.Np s.V s.swp.C P123) * Matrix.diagonal D ∧
      (∀ (hNp : 0 < x.g.Np) (q : Fin x.Nq) (i j : Fin deut.length), D (deut.get i, q, ⟨0, hNp⟩) * D (deut.get j, q, ⟨0, hNp⟩) = 1) ∧
      (∀ k : Fin qidx.length, (fun y : Idx (w.block chn).length x.Nq x.g.Np => s.cfg.G (k * s.cfg.D + flat y)) = fun y => s'.cfg.G (k * s'.cfg.D + flat y)) ∧
      ∀ (k : Fin qidx.length) (E : ℝ), s.os.Ecom[k]? = some E →
        FaddeevProblem x.p.isoBreak x.g x.pot (w.block chn) x.Nq x.q s.swp.Eb E (sparseMatrix _ x.Nq x.g.Np P123)
          (toC (kernelMatrix x.p (w.block chn) x.Nq x.g.Np s.V s.swp.C P123)) (fun y => s.cfg.G (k * s.cfg.D + flat y)) := by
  obtain ⟨e1, e2, ⟨D, d1, d2, d3⟩, e4⟩ := two_setups H H' hP hrun hrun'
  obtain ⟨deut, qidx, hdl, hin, hl1, hl2, hk⟩ := run_setup H hs hrun hEb
  obtain ⟨deut', qidx', hdl', hin', hl1', hl2', hk'⟩ := run_setup H' hs' hrun' (by rw [← e1]; exact hEb)
  have hinj : ∀ (N : Nat) (a b : List (Fin N)), a.map (·.val) = b.map (·.val) → a = b := fun N a b h => List.map_injective_iff.2 Fin.val_injective h
  have hc : s.cfg.deut = s'.cfg.deut := by
    obtain ⟨_, _, _, _, _, _, _, _, _, _, _, _, _, _, hcfg⟩ := runSetup_ok hrun
    obtain ⟨_, _, _, _, _, _, _, _, _, _, _, _, _, _, hcfg'⟩ := runSetup_ok hrun'
    rw [hcfg, hcfg']
  have hcq : s.cfg.qidx = s'.cfg.qidx := by
    obtain ⟨_, _, _, _, _, _, _, _, _, _, _, _, _, _, hcfg⟩ := runSetup_ok hrun
    obtain ⟨_, _, _, _, _, _, _, _, _, _, _, _, _, _, hcfg'⟩ := runSetup_ok hrun'
    rw [hcfg, hcfg', e2]
  obtain rfl : deut = deut' := hinj _ _ _ (by rw [← hin.deut_eq, ← hin'.deut_eq, hc])
  obtain rfl : qidx = qidx' := hinj _ _ _ (by rw [← hin.qidx_eq, ← hin'.qidx_eq, hcq])
  have hsq : ∀ y, D y * D y = 1 := fun y => by rcases d1 y with h | h <;> rw [h] <;> norm_num
  refine ⟨deut, qidx, fun y => (D y : ℂ), hdl, hin, hin', hl1, hl2, fun y => ?_, ?_, ?_, ?_, ?_⟩
  · show (D y : ℂ) * (D y : ℂ) = 1
    exact_mod_cast hsq y
  · rw [d2]
    ext a b
    unfold toC
    rw [Matrix.map_apply, Matrix.mul_diagonal, Matrix.diagonal_mul, Matrix.mul_diagonal, Matrix.diagonal_mul, Matrix.map_apply]
    push_cast; rfl
  · intro hNp q i j
    have := d3 (deut.get i, q, ⟨0, hNp⟩) (deut.get j, q, ⟨0, hNp⟩) ((hdl.2 _).1 (List.get_mem _ _)) ((hdl.2 _).1 (List.get_mem _ _)) rfl rfl
    show (D (deut.get i, q, ⟨0, hNp⟩) : ℂ) * (D (deut.get j, q, ⟨0, hNp⟩) : ℂ) = 1
    rw [this]
    exact_mod_cast hsq _
  · intro k
    funext y
    exact e4 k (by rw [hl2]; exact k.2) y
  · intro k E hE
    have hlt : (k : Nat) < s.os.Tlab.length := by rw [hl1]; exact k.2
    exact (hk k _ E (List.getElem?_eq_getElem hlt) hE).2

/-- **C89, direct solver.** Two runs on the same input, with the same permutation operator but on machines that differ in LAPACK's
eigenvectors, the contents of fresh memory and the order of threads: same deuteron energy, same list of energies, and the same number for
every elastic element whenever the discretised equation has one solution. -/
theorem C89_direct {x : RunInput} {env env' : RunEnv} {w : PWSpace} {chn : Nat} {P123 P123' : List (Entry ℝ)} (H : RunHyps x env w chn P123)
    (H' : RunHyps x env' w chn P123') (hP : sparseMatrix (w.block chn).length x.Nq x.g.Np P123 = sparseMatrix (w.block chn).length x.Nq x.g.Np P123')
    (hd : x.dense = true) {s s' : RunSetup} {U UBU U' UBU' : Nat → Option ℂ} (h : RunChannel x env w chn P123 s U UBU)
    (h' : RunChannel x env' w chn P123' s' U' UBU') (hEb : -(Mn + Mp) < s.swp.Eb) :
    s.swp.Eb = s'.swp.Eb ∧ s.os = s'.os ∧ ∃ deut : List (Fin (w.block chn).length), IsDeuteronList (w.block chn) deut ∧
    ∀ (k : Nat) (E : ℝ), s.os.Ecom[k]? = some E →
      (∀ A G, FaddeevProblem x.p.isoBreak x.g x.pot (w.block chn) x.Nq x.q s.swp.Eb E (sparseMatrix _ x.Nq x.g.Np P123) A G →
        (1 - A * Matrix.diagonal G).det ≠ 0) →
      ∀ i j : Fin deut.length, ∃ u, U (i * deut.length * s.os.Tlab.length + j * s.os.Tlab.length + k) = some u ∧
        U' (i * deut.length * s.os.Tlab.length + j * s.os.Tlab.length + k) = some u := by
  obtain ⟨ents, hsort, hrun, hsol⟩ := h
  obtain ⟨ents', hsort', hrun', hsol'⟩ := h'
  obtain ⟨e1, e2, -⟩ := two_setups H H' hP hrun hrun'
  obtain ⟨deut, qidx, D, hdl, hin, hin', hl1, hl2, hsq, hA, hDD, hG, hF⟩ := two_runs H H' hP hsort hsort' hrun hrun' hEb
  refine ⟨e1, e2, deut, hdl, fun k E hE hdet i j => ?_⟩
  have hkl : k < qidx.length := by rw [← hl2]; exact (List.getElem?_eq_some_iff.1 hE).1
  have hNp : 0 < x.g.Np := by have := H.bins; omega
  have hdet1 := hdet _ _ (hF ⟨k, hkl⟩ E hE)
  unfold SolveFaddeev at hsol hsol'
  rw [if_pos hd] at hsol hsol'
  obtain ⟨⟨V, hV, rfl⟩, -⟩ := hsol
  obtain ⟨⟨V', hV', rfl⟩, -⟩ := hsol'
  have hch := (block_channel H.valid H.basis H.channel).1
  obtain ⟨X, hX, hel⟩ := C48_dense H.tensor hch hNp hin H.size.1 H.size.2 V hV ⟨k, hkl⟩ hdet1
  have hGk := hG ⟨k, hkl⟩
  dsimp only at hGk
  obtain ⟨X', hX', hel'⟩ := C48_dense H'.tensor hch hNp hin' H'.size.1 H'.size.2 V' hV' ⟨k, hkl⟩ (by
    dsimp only
    rw [hA, ← hGk]; exact det_signs hsq hdet1)
  dsimp only at hX' hX
  rw [hA, ← hGk] at hX'
  have hsol := amplitude_signs hsq ((hX X).2 rfl)
  have hXX := (hX' _).1 hsol
  have key : V (elNum s.cfg i j k) = V' (elNum s'.cfg i j k) := by
    rw [hel i j, hel' i j, ← hXX, Matrix.mul_diagonal, Matrix.diagonal_mul, mul_right_comm, hDD hNp _ i j, one_mul]
  have n1 : ∀ {c : PadeCfg}, c.deut = deut.map (·.val) → c.qidx = qidx.map (·.val) →
      elNum c i j k = i * deut.length * s.os.Tlab.length + j * s.os.Tlab.length + k := by
    intro c h1 h2
    unfold elNum PadeCfg.nd PadeCfg.nq
    rw [h1, h2, List.length_map, List.length_map, hl1]
  rw [n1 hin.deut_eq hin.qidx_eq, n1 hin'.deut_eq hin'.qidx_eq] at key
  exact ⟨_, rfl, by rw [key]⟩

/-- **C89, iterative solver without breakup** (the memory cell before the array of approximants, which the program reads, must
have the same content; see `C89_memory_dependent`). No condition on the equation. -/
theorem C89_iterative {x : RunInput} {env env' : RunEnv} {w : PWSpace} {chn : Nat} {P123 P123' : List (Entry ℝ)} (H : RunHyps x env w chn P123)
    (H' : RunHyps x env' w chn P123') (hP : sparseMatrix (w.block chn).length x.Nq x.g.Np P123 = sparseMatrix (w.block chn).length x.Nq x.g.Np P123')
    (hd : x.dense = false) (hb : x.breakup = false) (hcell : env.pade.pa (-1) = env'.pade.pa (-1)) {s s' : RunSetup} {U UBU U' UBU' : Nat → Option ℂ}
    (h : RunChannel x env w chn P123 s U UBU) (h' : RunChannel x env' w chn P123' s' U' UBU') (hEb : -(Mn + Mp) < s.swp.Eb) :
    s.swp.Eb = s'.swp.Eb ∧ s.os = s'.os ∧ ∃ deut : List (Fin (w.block chn).length), IsDeuteronList (w.block chn) deut ∧
    ∀ k < s.os.Tlab.length, ∀ i j : Fin deut.length, ∃ u, U (i * deut.length * s.os.Tlab.length + j * s.os.Tlab.length + k) = some u ∧
        U' (i * deut.length * s.os.Tlab.length + j * s.os.Tlab.length + k) = some u := by
  obtain ⟨ents, hsort, hrun, hsol⟩ := h
  obtain ⟨ents', hsort', hrun', hsol'⟩ := h'
  obtain ⟨e1, e2, -⟩ := two_setups H H' hP hrun hrun'
  obtain ⟨deut, qidx, D, hdl, hin, hin', hl1, hl2, hsq, hA, hDD, hG, hF⟩ := two_runs H H' hP hsort hsort' hrun hrun' hEb
  refine ⟨e1, e2, deut, hdl, fun k hk i j => ?_⟩
  have hkl : k < qidx.length := by rw [← hl1]; exact hk
  have hNp : 0 < x.g.Np := by have := H.bins; omega
  unfold SolveFaddeev at hsol hsol'
  rw [if_neg (by simp [hd])] at hsol hsol'
  obtain ⟨sf, hsf, rfl, -⟩ := hsol
  obtain ⟨sf', hsf', rfl, -⟩ := hsol'
  have hch := (block_channel H.valid H.basis H.channel).1
  have hbc : s.cfg.breakup = false := by
    obtain ⟨_, _, _, _, _, _, _, _, _, _, _, _, _, _, hcfg⟩ := runSetup_ok hrun
    rw [hcfg]; exact hb
  have hbc' : s'.cfg.breakup = false := by
    obtain ⟨_, _, _, _, _, _, _, _, _, _, _, _, _, _, hcfg⟩ := runSetup_ok hrun'
    rw [hcfg]; exact hb
  have S := hin.setup H.tensor hch hNp H.size.1 H.size.2
  have S' := hin'.setup H.tensor hch hNp H.size.1 H.size.2
  have key := padeSolve_same S S' hbc hbc' (by
    intro i j q m
    unfold exactTerm gAt
    rw [hA, ← hG q, neumann_signs hsq, Matrix.mul_diagonal, Matrix.diagonal_mul, mul_right_comm, hDD hNp _ i j, one_mul]) hcell hsf hsf' (elastic_all_converged S hbc hsf) i j ⟨k, hkl⟩
  obtain ⟨sf2, hsf2, hval⟩ := C47_elastic_complete H.tensor hch hNp hin H.size.1 H.size.2 hbc env.pade
  rw [hsf] at hsf2
  obtain rfl := Option.some.inj hsf2
  obtain ⟨u, hu, -⟩ := hval i j ⟨k, hkl⟩
  have n1 : ∀ {c : PadeCfg}, c.deut = deut.map (·.val) → c.qidx = qidx.map (·.val) →
      elNum c i j k = i * deut.length * s.os.Tlab.length + j * s.os.Tlab.length + k := by
    intro c h1 h2
    unfold elNum PadeCfg.nd PadeCfg.nq
    rw [h1, h2, List.length_map, List.length_map, hl1]
  dsimp only at key hu
  rw [n1 hin.deut_eq hin.qidx_eq, n1 hin'.deut_eq hin'.qidx_eq] at key
  rw [n1 hin.deut_eq hin.qidx_eq] at hu
  exact ⟨u, hu, by rw [← key, hu]⟩

end TicTac
end
