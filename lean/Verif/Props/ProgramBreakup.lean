import Verif.Props.BreakupShell
import Verif.Spec.Program
/-! The file of breakup amplitudes of one solve. -/
noncomputable section
namespace TicTac
open Spec Classical
open scoped Polynomial

/-- The discretised problem of a run with the stored boundaries of the energy bins. -/
theorem run_bins {x : RunInput} {env : RunEnv} {w : PWSpace} {chn : Nat} {P123 ents : List (Entry ℝ)} (H : RunHyps x env w chn P123)
    {s : RunSetup} (hs : ColMajorSorted ((w.block chn).length * x.Nq * x.g.Np) P123 ents) (hrun : runSetup x env w chn ents = .ok s) (hEb : -(Mn + Mp) < s.swp.Eb) :
    ∃ C lam, ScatteringBasis x.p.isoBreak x.g x.pot (w.block chn) x.Nq s.swp.Eb C lam ∧
      EnergyBins (w.block chn) x.g.Np s.swp.Eb lam (fun a i => edgeOf x.p x.g.Np s.swp.e ((w.block chn).get a) i) ∧
      toC (kernelMatrix x.p (w.block chn) x.Nq x.g.Np s.V s.swp.C P123) = effective (sparseMatrix _ x.Nq x.g.Np P123) (interactionMatrix x.p.isoBreak x.g x.pot (w.block chn) x.Nq) C ∧
      ∀ (k : Nat) (E : ℝ), s.os.Ecom[k]? = some E →
        IsResolvent (w.block chn) x.Nq x.g.Np x.q s.swp.Eb E (fun a i => edgeOf x.p x.g.Np s.swp.e ((w.block chn).get a) i) (fun y => s.cfg.G (k * s.cfg.D + flat y)) := by
  obtain ⟨M, bu, Gs, CT, VC, hM, hst, hos, hbu, hGs, hCT, hVC, -, hV, hcfg⟩ := runSetup_ok hrun
  obtain ⟨M', hM', hread⟩ := potArrays_read H.tensor H.valid H.basis H.mid x.pot env.junkV env.initV
  rw [hM] at hM'; cases hM'
  have hhold : HoldsPotential x.p x.g x.pot w.states (fun b i => M (b, i)) := hread
  obtain ⟨hch, hsub⟩ := block_channel H.valid H.basis H.channel
  have hbasis := basis_of_run H.tensor H.valid H.basis H.pgrid H.hermitian hhold H.lapack hst hch hsub x.Nq
  have hbins := bins_of_run H.tensor H.valid H.basis H.pgrid H.hermitian hhold H.lapack hst hch hsub H.bins (H.simple _ _ _ hbasis)
  refine ⟨_, _, hbasis, hbins, ?_, ?_⟩
  · unfold effective kernelMatrix
    rw [hV, interaction_eq H.tensor hhold hch hsub x.Nq]
  · intro k E hE
    obtain ⟨kE, rfl⟩ := List.getElem?_eq_some_iff.1 hE
    obtain ⟨hGl, hGv⟩ := mapM_ok _ _ _ hGs
    obtain ⟨-, ⟨bins, -, ht1, ht2, hpt⟩, -⟩ := C39_on_shell_rows x.Nq x.q H.qgrid s.swp.Eb hEb x.Tlab s.os hos
    obtain ⟨p1, p2, p3⟩ := hpt k (by omega) (by omega) kE
    have hGk := orStop_ok (hGv k kE (by omega))
    have hres := resolvent_of_bins H.tensor hch H.qgrid hEb hbins (fun a ha hn => (hbasis.bound a ha hn).2) p1 p3 hGk
    have hD : s.cfg.D = (w.block chn).length * x.Nq * x.g.Np := by rw [hcfg]; rfl
    have hGeq : (fun y : Idx (w.block chn).length x.Nq x.g.Np => s.cfg.G (k * s.cfg.D + flat y)) =
        fun y => (Gs[(k : Nat)]'(by omega)) (flat y) := by
      funext y
      rw [hD, show s.cfg.G = gArray ((w.block chn).length * x.Nq * x.g.Np) Gs by rw [hcfg], gArray_at _ _ _ (by omega) _ (flat_lt y)]
    rw [hGeq]
    exact hres

/-- The iterative solver did not stop by its count of accepted elements, or has no breakup elements (C47). -/
def CountedOut (env : RunEnv) (s : RunSetup) : Prop :=
  (∀ E ∈ s.os.Ecom, E + s.swp.Eb < 0) ∨ ∀ sf, padeSolve s.cfg env.sched env.pade = some sf → sf.numConv ≠ s.cfg.numEL

/-- The file of breakup amplitudes of a solve. -/
theorem breakup_file {computed : Bool} {g : Gsl} {m : Quad} {x : RunInput} {env : RunEnv} {w : PWSpace} {chn : Nat} {P123 : List (Entry ℝ)} (H : RunBase x env w chn)
    (hP : P123Source computed g x.grid m (w.block chn) P123) (hb : x.breakup = true) {s : RunSetup} {U UBU : Nat → Option ℂ}
    (h : RunChannel x env w chn P123 s U UBU) (hEb : -(Mn + Mp) < s.swp.Eb) (hsolver : x.dense = true ∨ CountedOut env s) {qOut : Int → ℝ} {t : BuTable}
    (ht : breakupOf x w chn s UBU qOut = some t) :
    BreakupFile x.dense x.p.isoBreak x.g x.pot (w.block chn) x.Nq x.q (gridOperator g x.grid m (w.block chn)) (elasticTable s U) t := by
  obtain ⟨H', hop⟩ := run_of_source H hP
  have hop : sparseMatrix (w.block chn).length x.Nq x.g.Np P123 = gridOperator g x.grid m (w.block chn) := hop
  have h' := h
  obtain ⟨ents, hsort, hrun, hsol⟩ := h'
  have hNp : 0 < x.g.Np := by have : 3 ≤ x.g.Np := H.bins; omega
  obtain ⟨C, lam, hbasis, hbins, heff, hres⟩ := run_bins H' hsort hrun hEb
  rw [hop] at heff
  obtain ⟨deut, qidx, hdl, hin, hl1, hl2, hk⟩ := run_setup H' hsort hrun hEb
  obtain ⟨v, off, hfb, hos, c1, c2, c3, c4⟩ := breakup_cfg hb hrun
  have hch := (block_channel H.valid H.basis H.channel).1
  have hdeut : (findDeuteronChannels w).getD chn [] = deut.map (·.val) := by
    rw [← hin.deut_eq]
    obtain ⟨_, _, _, _, _, _, _, _, _, _, _, _, _, _, hcfg⟩ := runSetup_ok hrun
    rw [hcfg]
  unfold breakupOf at ht
  rw [hfb] at ht
  dsimp only at ht
  obtain ⟨t', start, row, col, ht', hI, hlist⟩ := C81_run H.valid H.basis H.channel x.g.Np x.Nq x.q H.qgrid qOut s.swp.e s.swp.Eb hEb x.Tlab s.os hos v off hfb fun n => (UBU n).getD 0
  rw [ht'] at ht
  obtain rfl := Option.some.inj ht
  rw [hdeut] at hlist
  refine ⟨s.swp.Eb, C, lam, _, hbasis, hbins, deut, hdl, hI.width, ?_⟩
  intro r hr habove
  obtain ⟨k, hkr, rfl⟩ := List.mem_map.1 hr
  have hkT := List.mem_range.1 hkr
  have hkE : k < s.os.Ecom.length := by omega
  dsimp only at habove ⊢
  have eT : s.os.Tlab.getD k 0 = s.os.Tlab[k] := by rw [List.getD_eq_getElem?_getD, List.getElem?_eq_getElem hkT]; rfl
  have eE : s.os.Ecom.getD k 0 = s.os.Ecom[k] := by rw [List.getD_eq_getElem?_getD, List.getElem?_eq_getElem hkE]; rfl
  rw [eE] at habove
  rw [eT, eE]
  obtain ⟨o1, -⟩ := hk ⟨k, by omega⟩ _ _ (List.getElem?_eq_getElem hkT) (List.getElem?_eq_getElem hkE)
  refine ⟨_, _, o1, hres k _ (List.getElem?_eq_getElem hkE), ?_⟩
  intro i y hy hlo hhi
  -- the cell is recorded
  obtain ⟨pb, pn, hp, hkp⟩ := edge_ptr H.tensor hch x.g.Np s.swp.e y.1
  have k0 := hkp y.2.2
  have k1 := hkp (y.2.2 + 1)
  have hmono : edgeOf x.p x.g.Np s.swp.e ((w.block chn).get y.1) y.2.2 ≤ edgeOf x.p x.g.Np s.swp.e ((w.block chn).get y.1) (y.2.2 + 1) := ((hbins y.1).1.1 y.2.2 y.2.2.2).le
  obtain ⟨-, -, -, hoff⟩ := C40_offsets _ _ _ _ _ _ _ _ _ _ hfb
  obtain ⟨lo, hi, d1, d2, d3, d4⟩ := hoff k hkE
  have hmem := ((C40_recorded_cells _ _ _ _ _ _ _ _ _ d4).2 habove).2.2 y.1 y.1.2 y.2.1 y.2.1.2 y.2.2 y.2.2.2 ⟨pb, pn, hp, by
    rw [show pn + ((y.2.2 : Nat) : Int) + 1 = pn + ((y.2.2 + 1 : Nat) : Int) by push_cast; ring, ← k0, ← k1]
    exact ⟨hlo, hhi, hy, hy.trans hmono⟩⟩
  obtain ⟨b, b1, b2, b3⟩ := (slice_mem d1 d2 _).1 hmem
  have hi' : (i : Nat) < (deut.map (·.val)).length := by rw [List.length_map]; exact i.2
  obtain ⟨r1, r2, a, qb', pb', st, st', ptr, q1, q2, q3, q4, q5, q6, q7, q8, q9⟩ := hlist.cells k hkT b b1 b2 i hi'
  rw [b3] at q1
  obtain ⟨rfl, rfl, rfl⟩ : (y.1.val : Int) = a ∧ (y.2.1.val : Int) = qb' ∧ (y.2.2.val : Int) = pb' := by
    have := Option.some.inj q1
    exact ⟨congrArg (·.1) this, congrArg (·.2.1) this, congrArg (·.2.2) this⟩
  have est : (w.block chn).get y.1 = st := by
    rw [Int.toNat_natCast, List.getElem?_eq_getElem y.1.2] at q2
    exact Option.some.inj q2
  have est' : (w.block chn).get (deut.get i) = st' := by
    rw [List.getElem_map, List.getElem?_eq_getElem (deut[(i : Nat)]).2] at q3
    exact Option.some.inj q3
  rw [← est, hp] at q4
  cases q4
  obtain ⟨qq1, qq2⟩ := q7 (by omega)
  obtain ⟨E', qc, qi, l1, l2, l3, l4, l5, l6, l7, -⟩ := hlist.energies k hkT _ r1 r2
  rw [List.getElem?_eq_getElem hkE] at l1
  cases l1
  have hrows : row i b < t'.rows := by
    have hm : ∀ j, k + 1 + j ≤ s.os.Tlab.length → start (k + 1) ≤ start (k + 1 + j) := by
      intro j
      induction j with
      | zero => intro _; exact le_rfl
      | succ j ih => intro hj; exact (ih (by omega)).trans (hI.mono (k + 1 + j) (show k + 1 + j < s.os.Tlab.length by omega))
    have h1 := hm (s.os.Tlab.length - (k + 1)) (by omega)
    rw [show k + 1 + (s.os.Tlab.length - (k + 1)) = s.os.Tlab.length by omega] at h1
    have h2 : start s.os.Tlab.length = t'.rows := hI.last
    omega
  refine ⟨row i b, col i b, hrows, l6, l7, ?_, ?_, ?_, ?_, ?_, ?_⟩
  · rw [est, est']; exact q5
  · exact qq1
  · exact qq2
  · rw [k0]; exact q8
  · rw [k1, q9]
    push_cast
    rw [add_assoc]
  · rw [q6]
    by_cases hd : x.dense = true
    · rw [if_pos hd]
      unfold SolveFaddeev at hsol
      rw [if_pos hd] at hsol
      rw [hsol.2]
      rfl
    · rw [if_neg hd]
      intro p0 hp0
      obtain rfl : p0 = ⟨0, hNp⟩ := Fin.ext hp0
      obtain ⟨deut2, hdl2, v2, off2, hfb2, t2, st2, row2, col2, -, -, hall⟩ := breakup_solved H hP (by simpa using hd) hb h hEb (hsolver.resolve_left hd) hNp qOut
      obtain rfl := deut_unique hdl hdl2
      rw [hfb] at hfb2
      cases hfb2
      obtain ⟨qb2, o2, -, -, hbu⟩ := hall k _ _ (List.getElem?_eq_getElem hkT) (List.getElem?_eq_getElem hkE)
      have eq2 : qb2 = qidx.get ⟨k, by omega⟩ := Fin.ext (bin_unique H.qgrid qb2.2 (qidx.get ⟨k, by omega⟩).2 o2.2.1 o2.2.2 o1.2.1 o1.2.2)
      subst eq2
      obtain ⟨n, hn, pp, qq, hP, hq1, -, -, -, hu⟩ := hbu i b y b1 b2 b3
      rw [heff] at hP
      exact ⟨n, hn, pp, qq, hP, hq1, by rw [hu]; rfl⟩

end TicTac
end
