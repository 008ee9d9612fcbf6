import Verif.Props.FillP123
import Verif.Props.BreakupTable
import Verif.Props.PadeSolve3
import Verif.Props.Accept
/-! C116: the elastic and breakup amplitudes of a run with breakup, and the table of breakup amplitudes. -/
noncomputable section
namespace TicTac
open Spec Classical
open scoped Polynomial

/-- Elastic and breakup elements when the loop cannot stop, or does not stop, by the count. -/
theorem complete_or_none {p : PWParams} {twoJ3 P : Int} {states : List PWState} {Nq Np : Nat} {V C : Bool → Int → ℝ} {P123 : List (Entry ℝ)} {c : PadeCfg}
    {deut : List (Fin states.length)} {qidx : List (Fin Nq)} {sched : List Nat} (ht : p.tensor = true) (h : IsChannel p twoJ3 P states) (hNp : 0 < Np)
    (hin : SolverInput p states Nq Np V C P123 c deut qidx sched) (hD : 0 < states.length * Nq * Np) (hD' : states.length * Nq * Np ≤ 2 ^ 28) (junk : PadeJunk) :
    ∃ s, padeSolve c sched junk = some s ∧ (buElems c = [] ∨ s.numConv ≠ c.numEL → ∀ (i : Fin deut.length) (q : Fin qidx.length),
      (∀ j : Fin deut.length, ∃ u, padeU s (elNum c i j q) = some u ∧ IsApproximant p states V C P123 c deut qidx hNp i q (deut.get j, qidx.get q, ⟨0, hNp⟩) u) ∧
      (∀ b y, BuIs c q b y → ∃ u, padeUBU s (i * c.nBU + b) = some u ∧ IsApproximant p states V C P123 c deut qidx hNp i q y u)) := by
  obtain ⟨s, hs, hval⟩ := C47_complete_unless_count ht h hNp hin hD hD' junk
  refine ⟨s, hs, fun hor i q => ?_⟩
  rcases hor with hb0 | hne
  · have S := hin.setup ht h hNp hD hD'
    rw [padeSolve_eq S junk] at hs
    have hs := Option.some.inj hs
    subst hs
    obtain ⟨m0, hm0, hL, hor⟩ := padeLoopN_inv S junk 15 le_rfl
    generalize padeLoopN c (padeInit c sched junk) 15 = s at hL hor ⊢
    constructor
    · intro j
      obtain ⟨e, he, h1, h2⟩ := el_mem S i j q
      have hc : s.el.conv e.idx = true := by
        rcases hor with hor | hor
        · by_contra hx
          have := ((hL.el e he i q _ h2).1 (by simpa using hx)).1
          omega
        · rw [hL.count, hb0, ← numEL_length] at hor
          exact convCount_all (by simpa [convCount] using hor) e he
      rw [← h1]
      exact value_el hL.el hm0 he hc h2
    · intro b y hb
      obtain ⟨e, he, -⟩ := bu_mem S i q b y hb
      rw [hb0] at he
      cases he
  · exact hval hne i q

/-- What a run with breakup hands to the solver and to the table. -/
theorem breakup_cfg {x : RunInput} {env : RunEnv} {w : PWSpace} {chn : Nat} {ents : List (Entry ℝ)} {s : RunSetup} (hb : x.breakup = true)
    (h : runSetup x env w chn ents = .ok s) :
    ∃ v off, findBreakup x.p x.g.Np x.Nq x.q s.swp.e s.swp.Eb (w.block chn) s.os.Ecom = .ok (v, off) ∧ findOnShell x.Nq x.q s.swp.Eb x.Tlab = .ok s.os ∧
      s.cfg.breakup = true ∧ s.cfg.nBU = v.length ∧ (∀ k, s.cfg.buStart k = off.getD k 0) ∧
      ∀ b, s.cfg.buState b = ((v.getD b (0, 0, 0)).1.toNat, (v.getD b (0, 0, 0)).2.1.toNat, (v.getD b (0, 0, 0)).2.2.toNat) := by
  obtain ⟨M, bu, Gs, CT, VC, hM, hst, hos, hbu, hGs, hCT, hVC, -, hV, hcfg⟩ := runSetup_ok h
  unfold runBreakup at hbu
  rw [if_pos hb] at hbu
  simp only [bind, Except.bind] at hbu
  split at hbu
  · cases hbu
  rename_i b hfb
  simp only [pure, Except.pure, Except.ok.injEq] at hbu
  refine ⟨b.1, b.2, hfb, hos, ?_, ?_, ?_, ?_⟩
  · rw [hcfg]; exact hb
  all_goals rw [hcfg, ← hbu]
  · intro k; rfl
  · intro k; rfl

/-- Below the threshold no cell is recorded. -/
theorem below_none {p : PWParams} {Np Nq : Nat} {q : Nat → ℝ} {e : Bool → Int → ℝ} {Eb : ℝ} {states : List PWState} {Ecom : List ℝ} {v : List (Int × Int × Int)} {off : List Nat}
    (h : findBreakup p Np Nq q e Eb states Ecom = .ok (v, off)) (hlow : ∀ E ∈ Ecom, E + Eb < 0) : v = [] := by
  have key : ∀ (l : List ℝ) (s0 : List (Int × Int × Int) × List Nat) (r), (∀ E ∈ l, E + Eb < 0) → s0.1 = [] →
      l.foldlM (fun s E => do let l ← breakupEnergy p Np Nq q e Eb states E; pure (s.1 ++ l, s.2 ++ [(s.1 ++ l).length])) s0 = (.ok r : Except Stop _) → r.1 = [] := by
    intro l
    induction l with
    | nil => intro s0 r _ h0 hr; simp [pure, Except.pure] at hr; rw [← hr]; exact h0
    | cons E l ih =>
      intro s0 r hl h0 hr
      rw [List.foldlM_cons] at hr
      have hE : breakupEnergy p Np Nq q e Eb states E = .ok [] := by unfold breakupEnergy; rw [if_pos (hl E (List.mem_cons_self ..))]
      simp only [bind, Except.bind, hE, pure, Except.pure] at hr
      exact ih _ r (fun E hE => hl E (List.mem_cons_of_mem _ hE)) (by simp [h0]) hr
  exact key Ecom ([], [0]) (v, off) hlow rfl h

/-- `C116_iterative` with the kernel and the resolvent of the solver. -/
theorem breakup_solved {computed : Bool} {g : Gsl} {m : Quad} {x : RunInput} {env : RunEnv} {w : PWSpace} {chn : Nat} {P123 : List (Entry ℝ)}
    (H : RunBase x env w chn) (hP : P123Source computed g x.grid m (w.block chn) P123) (hd : x.dense = false) (hb : x.breakup = true) {s : RunSetup} {U UBU : Nat → Option ℂ}
    (h : RunChannel x env w chn P123 s U UBU) (hEb : -(Mn + Mp) < s.swp.Eb)
    (hcount : (∀ E ∈ s.os.Ecom, E + s.swp.Eb < 0) ∨ ∀ sf, padeSolve s.cfg env.sched env.pade = some sf → sf.numConv ≠ s.cfg.numEL)
    (hNp : 0 < x.g.Np) (qOut : Int → ℝ) :
    ∃ deut : List (Fin (w.block chn).length), IsDeuteronList (w.block chn) deut ∧ ∃ v off, findBreakup x.p x.g.Np x.Nq x.q s.swp.e s.swp.Eb (w.block chn) s.os.Ecom = .ok (v, off) ∧
    ∃ t start row col, breakupTable (buInputOf x.p (w.block chn) x.g.Np x.q qOut s.swp.e (deut.map (·.val)) s.os v off fun n => (UBU n).getD 0) = some t ∧
      ListsRun x.p (w.block chn) x.g.Np x.Nq x.q s.swp.e (deut.map (·.val)) s.os v off (fun n => (UBU n).getD 0) t start row col ∧
    ∀ (k : Nat) (T E : ℝ), s.os.Tlab[k]? = some T → s.os.Ecom[k]? = some E →
      ∃ qb, IsOnShellPoint x.Nq x.q s.swp.Eb T E qb ∧
        FaddeevProblem x.p.isoBreak x.g x.pot (w.block chn) x.Nq x.q s.swp.Eb E (gridOperator g ⟨x.g.Np, x.g.pWP, x.Nq, x.q⟩ m (w.block chn)) (toC (kernelMatrix x.p (w.block chn) x.Nq x.g.Np s.V s.swp.C P123)) (fun y => s.cfg.G (k * s.cfg.D + flat y)) ∧
        (∀ i j : Fin deut.length, ∃ n ≤ 14, ∃ pp qq : ℂ[X],
          IsPade (fun m => neumannTerm (toC (kernelMatrix x.p (w.block chn) x.Nq x.g.Np s.V s.swp.C P123)) (fun y => s.cfg.G (k * s.cfg.D + flat y)) m (deut.get i, qb, ⟨0, hNp⟩) (deut.get j, qb, ⟨0, hNp⟩)) n n pp qq ∧ qq.eval 1 ≠ 0 ∧
          U (i * deut.length * s.os.Tlab.length + j * s.os.Tlab.length + k) = some (pp.eval 1 / qq.eval 1)) ∧
        ∀ (i : Fin deut.length) (b : Nat) (y : Idx (w.block chn).length x.Nq x.g.Np), off.getD k 0 ≤ b → b < off.getD (k + 1) 0 →
          v[b]? = some ((y.1.val : Int), (y.2.1.val : Int), (y.2.2.val : Int)) → ∃ n ≤ 14, ∃ pp qq : ℂ[X],
          IsPade (fun m => neumannTerm (toC (kernelMatrix x.p (w.block chn) x.Nq x.g.Np s.V s.swp.C P123)) (fun y => s.cfg.G (k * s.cfg.D + flat y)) m (deut.get i, qb, ⟨0, hNp⟩) y) n n pp qq ∧ qq.eval 1 ≠ 0 ∧
          start k ≤ row i b ∧ row i b < start (k + 1) ∧ t.data (row i b * t.cols + col i b) = pp.eval 1 / qq.eval 1 ∧ UBU (i * v.length + b) = some (pp.eval 1 / qq.eval 1) := by
  obtain ⟨H', hop⟩ := run_of_source H hP
  obtain ⟨ents, hsort, hrun, hsol⟩ := h
  obtain ⟨deut, qidx, hdl, hin, hl1, hl2, hk⟩ := run_setup H' hsort hrun hEb
  obtain ⟨v, off, hfb, hos, c1, c2, c3, c4⟩ := breakup_cfg hb hrun
  have hdeut : (findDeuteronChannels w).getD chn [] = deut.map (·.val) := by
    rw [← hin.deut_eq]
    obtain ⟨_, _, _, _, _, _, _, _, _, _, _, _, _, _, hcfg⟩ := runSetup_ok hrun
    rw [hcfg]
  obtain ⟨t, start, row, col, ht, -, hlist⟩ := C81_run H.valid H.basis H.channel x.g.Np x.Nq x.q H.qgrid qOut s.swp.e s.swp.Eb hEb x.Tlab s.os hos v off hfb fun n => (UBU n).getD 0
  rw [hdeut] at ht hlist
  refine ⟨deut, hdl, v, off, hfb, t, start, row, col, ht, hlist, fun k T E hT hE => ?_⟩
  have hkT : k < s.os.Tlab.length := (List.getElem?_eq_some_iff.1 hT).1
  have hkl : k < qidx.length := by rw [← hl1]; exact hkT
  obtain ⟨h1, h2⟩ := hk ⟨k, hkl⟩ T E hT hE
  rw [hop] at h2
  unfold SolveFaddeev at hsol
  rw [if_neg (by simp [hd])] at hsol
  obtain ⟨sf, hsf, hU, hUBU⟩ := hsol
  have hch := (block_channel H.valid H.basis H.channel).1
  obtain ⟨sf', hsf', hval⟩ := complete_or_none H.tensor hch hNp hin H.size.1 H.size.2 env.pade
  rw [hsf] at hsf'; cases hsf'
  have hval := hval (hcount.imp (fun hlow => by
    have hv := below_none hfb hlow
    rw [hv] at c2
    rw [List.eq_nil_iff_forall_not_mem]
    intro e he
    have := bu_idx_lt (hin.setup H.tensor hch hNp H.size.1 H.size.2) he
    unfold PadeCfg.numBU at this
    rw [c2] at this
    simp at this) fun hne => hne sf hsf)
  refine ⟨_, h1, h2, fun i j => ?_, fun i b y hb1 hb2 hv => ?_⟩
  · obtain ⟨u, hu, n, hn, hpa⟩ := (hval i ⟨k, hkl⟩).1 j
    obtain ⟨pp, qq, hP, hq1, hq2⟩ := C46_is_pade (by omega) hpa
    refine ⟨n, hn, pp, qq, hP, hq1, ?_⟩
    rw [← hq2, ← hu, hU]
    unfold elNum
    rw [show s.cfg.nd = deut.length by unfold PadeCfg.nd; rw [hin.deut_eq, List.length_map],
      show s.cfg.nq = s.os.Tlab.length by unfold PadeCfg.nq; rw [hin.qidx_eq, List.length_map, hl1]]
  · have hbu : BuIs s.cfg k b y := by
      refine ⟨c1, by rw [c3]; exact hb1, by rw [c3]; exact hb2, ?_⟩
      rw [c4, List.getD_eq_getElem?_getD, hv]
      rfl
    obtain ⟨u, hu, n, hn, hpa⟩ := (hval i ⟨k, hkl⟩).2 b y hbu
    obtain ⟨pp, qq, hP, hq1, hq2⟩ := C46_is_pade (by omega) hpa
    obtain ⟨r1, r2, a, qb', pb', s1, s1', ptr, -, -, -, -, -, hdat, -⟩ := hlist.cells k hkT b hb1 hb2 i (by rw [List.length_map]; exact i.2)
    refine ⟨n, hn, pp, qq, hP, hq1, r1, r2, ?_, ?_⟩
    · rw [hdat, ← hq2, hUBU, ← c2, hu]
      rfl
    · rw [← hq2, hUBU, ← c2, hu]

/-- **C116.** A run with breakup and the iterative solver, below the breakup threshold or not stopping early by counting accepted elements (see C47): at every energy the elastic amplitudes, and in the table of
breakup amplitudes the number in the row and column of every deuteron state and recorded cell inside the grids, are diagonal Padé approximants of the Neumann series of their own element
of the discretised Faddeev problem of the user's interaction at that energy, between the deuteron in the on-shell bin and the wave packet of the cell. -/
theorem C116_iterative {computed : Bool} {g : Gsl} {m : Quad} {x : RunInput} {env : RunEnv} {w : PWSpace} {chn : Nat} {P123 : List (Entry ℝ)}
    (H : RunBase x env w chn) (hP : P123Source computed g x.grid m (w.block chn) P123) (hd : x.dense = false) (hb : x.breakup = true) {s : RunSetup} {U UBU : Nat → Option ℂ}
    (h : RunChannel x env w chn P123 s U UBU) (hEb : -(Mn + Mp) < s.swp.Eb)
    (hcount : (∀ E ∈ s.os.Ecom, E + s.swp.Eb < 0) ∨ ∀ sf, padeSolve s.cfg env.sched env.pade = some sf → sf.numConv ≠ s.cfg.numEL)
    (hNp : 0 < x.g.Np) (qOut : Int → ℝ) :
    ∃ deut : List (Fin (w.block chn).length), IsDeuteronList (w.block chn) deut ∧ ∃ v off, findBreakup x.p x.g.Np x.Nq x.q s.swp.e s.swp.Eb (w.block chn) s.os.Ecom = .ok (v, off) ∧
    ∃ t start row col, breakupTable (buInputOf x.p (w.block chn) x.g.Np x.q qOut s.swp.e (deut.map (·.val)) s.os v off fun n => (UBU n).getD 0) = some t ∧
      ListsRun x.p (w.block chn) x.g.Np x.Nq x.q s.swp.e (deut.map (·.val)) s.os v off (fun n => (UBU n).getD 0) t start row col ∧
    ∀ (k : Nat) (T E : ℝ), s.os.Tlab[k]? = some T → s.os.Ecom[k]? = some E →
      ∃ qb A G, IsOnShellPoint x.Nq x.q s.swp.Eb T E qb ∧
        FaddeevProblem x.p.isoBreak x.g x.pot (w.block chn) x.Nq x.q s.swp.Eb E (gridOperator g ⟨x.g.Np, x.g.pWP, x.Nq, x.q⟩ m (w.block chn)) A G ∧
        (∀ i j : Fin deut.length, ∃ n ≤ 14, ∃ pp qq : ℂ[X],
          IsPade (fun m => neumannTerm A G m (deut.get i, qb, ⟨0, hNp⟩) (deut.get j, qb, ⟨0, hNp⟩)) n n pp qq ∧ qq.eval 1 ≠ 0 ∧
          U (i * deut.length * s.os.Tlab.length + j * s.os.Tlab.length + k) = some (pp.eval 1 / qq.eval 1)) ∧
        ∀ (i : Fin deut.length) (b : Nat) (y : Idx (w.block chn).length x.Nq x.g.Np), off.getD k 0 ≤ b → b < off.getD (k + 1) 0 →
          v[b]? = some ((y.1.val : Int), (y.2.1.val : Int), (y.2.2.val : Int)) → ∃ n ≤ 14, ∃ pp qq : ℂ[X],
          IsPade (fun m => neumannTerm A G m (deut.get i, qb, ⟨0, hNp⟩) y) n n pp qq ∧ qq.eval 1 ≠ 0 ∧
          start k ≤ row i b ∧ row i b < start (k + 1) ∧ t.data (row i b * t.cols + col i b) = pp.eval 1 / qq.eval 1 := by
  obtain ⟨deut, hdl, v, off, hfb, t, start, row, col, ht, hlist, hall⟩ := breakup_solved H hP hd hb h hEb hcount hNp qOut
  refine ⟨deut, hdl, v, off, hfb, t, start, row, col, ht, hlist, fun k T E hT hE => ?_⟩
  obtain ⟨qb, h1, h2, h3, h4⟩ := hall k T E hT hE
  refine ⟨qb, _, _, h1, h2, h3, fun i b y hb1 hb2 hv => ?_⟩
  obtain ⟨n, hn, pp, qq, k1, k2, k3, k4, k5, -⟩ := h4 i b y hb1 hb2 hv
  exact ⟨n, hn, pp, qq, k1, k2, k3, k4, k5⟩

/-- **C116, direct solver.** With the direct solver every number in the table of breakup amplitudes is zero, whatever the solution of the scattering equation is. -/
theorem C116_direct_zero {x : RunInput} {env : RunEnv} {w : PWSpace} {chn : Nat} {P123 : List (Entry ℝ)} (H : RunBase x env w chn) (hd : x.dense = true) (hb : x.breakup = true)
    {s : RunSetup} {U UBU : Nat → Option ℂ} (h : RunChannel x env w chn P123 s U UBU) (hEb : -(Mn + Mp) < s.swp.Eb) (qOut : Int → ℝ) :
    ∃ v off t start row col, findBreakup x.p x.g.Np x.Nq x.q s.swp.e s.swp.Eb (w.block chn) s.os.Ecom = .ok (v, off) ∧
      breakupTable (buInputOf x.p (w.block chn) x.g.Np x.q qOut s.swp.e ((findDeuteronChannels w).getD chn []) s.os v off fun n => (UBU n).getD 0) = some t ∧
      ListsRun x.p (w.block chn) x.g.Np x.Nq x.q s.swp.e ((findDeuteronChannels w).getD chn []) s.os v off (fun _ => 0) t start row col := by
  obtain ⟨ents, hsort, hrun, hsol⟩ := h
  obtain ⟨v, off, hfb, hos, -⟩ := breakup_cfg hb hrun
  obtain ⟨t, start, row, col, ht, -, hlist⟩ := C81_run H.valid H.basis H.channel x.g.Np x.Nq x.q H.qgrid qOut s.swp.e s.swp.Eb hEb x.Tlab s.os hos v off hfb fun n => (UBU n).getD 0
  unfold SolveFaddeev at hsol
  rw [if_pos hd] at hsol
  obtain ⟨-, hUBU⟩ := hsol
  refine ⟨v, off, t, start, row, col, hfb, ht, ?_⟩
  have : (fun n => (UBU n).getD 0) = fun _ => (0 : ℂ) := by rw [hUBU]; rfl
  rw [this] at hlist
  exact hlist

end TicTac
end
