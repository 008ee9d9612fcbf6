import Verif.Spec.Program
import Verif.Props.FillP123
import Verif.Props.Walk
import Verif.Props.Repro
import Verif.Props.RunExample
import Verif.Props.ProgramBreakup
/-! C115: the files of elastic and breakup amplitudes a whole run leaves. -/
noncomputable section
namespace TicTac
open Spec Classical
open scoped Polynomial

/-- Name of the file for channel number `chn` (spin and parity by `channelJP`) and parameter set `psi`. -/
def amplitudeFileName (X : ProgramInput) (chn psi : Int) : Str :=
  uFile X.folder X.x.g.Np X.x.Nq (channelJP chn).1 (channelJP chn).2 X.x.p.J2max psi

/-- Name of the file of breakup amplitudes. -/
def breakupFileName (X : ProgramInput) (chn psi : Int) : Str :=
  uBuFile X.folder X.x.g.Np X.x.Nq (channelJP chn).1 (channelJP chn).2 X.x.p.J2max psi

/-- What is needed of one solve: `RunBase`, the permutation matrix computed or read, an iterative solver that does not stop early by its count of accepted elements when there are breakup
elements (C47), and an interaction that does not bind the deuteron by more than the mass of its nucleons. -/
structure SolveHyps (X : ProgramInput) (w : PWSpace) (computed : Bool) (g : Gsl) (m : Quad) (P123 : List (Entry ℝ)) (env : RunEnv) (chn : Int) (V : PotModel) : Prop where
  base : RunBase { X.x with pot := V } env w chn.toNat
  nonneg : 0 ≤ chn
  source : P123Source computed g X.x.grid m (w.block chn.toNat) P123
  solver : X.x.dense = true ∨ X.x.breakup = false ∨ ∀ s U UBU, RunChannel { X.x with pot := V } env w chn.toNat P123 s U UBU → CountedOut env s
  shallow : ∀ Eb C lam, ScatteringBasis X.x.p.isoBreak X.x.g V (w.block chn.toNat) X.x.Nq Eb C lam → -(Mn + Mp) < Eb

theorem run_name {X : ProgramInput} {w : PWSpace} {env : RunEnv} {chn : Int} {V : PotModel} (H : RunBase { X.x with pot := V } env w chn.toNat) (h0 : 0 ≤ chn) (psi : Int) :
    elasticName X w chn psi = amplitudeFileName X chn psi ∧ breakupName X w chn psi = breakupFileName X chn psi := by
  obtain ⟨n, rfl⟩ : ∃ n : Nat, chn = n := ⟨chn.toNat, by omega⟩
  rw [Int.toNat_natCast] at H
  have hch := (block_channel H.valid H.basis H.channel).1
  have hne : w.block n ≠ [] := by
    intro h0
    have := H.size.1
    rw [h0] at this
    simp at this
  unfold elasticName amplitudeFileName breakupName breakupFileName
  rw [Int.toNat_natCast]
  cases hb : w.block n with
  | nil => exact absurd hb hne
  | cons a l =>
    obtain ⟨e1, e2⟩ := ((hch.2 a).1 (by rw [hb]; simp)).2
    have e3 : channelTwoJ (a :: l) = (channelJP n).1 := by
      show a.twoJ3 = _
      rw [e1]; unfold channelJP; dsimp only; push_cast; ring
    have e4 : channelParity (a :: l) = (channelJP n).2 := by
      show a.P = _
      rw [e2]; unfold channelJP; dsimp only
      by_cases h : n % 2 = 0
      · rw [if_pos h, if_pos (by omega)]
      · rw [if_neg h, if_neg (by omega)]
    rw [e3, e4]
    exact ⟨rfl, rfl⟩

theorem shallow_run {X : ProgramInput} {w : PWSpace} {computed : Bool} {g : Gsl} {m : Quad} {P123 : List (Entry ℝ)} {env : RunEnv} {chn : Int} {V : PotModel}
    (H : SolveHyps X w computed g m P123 env chn V) {s : RunSetup} {U UBU : Nat → Option ℂ} (h : RunChannel { X.x with pot := V } env w chn.toNat P123 s U UBU) :
    -(Mn + Mp) < s.swp.Eb := by
  obtain ⟨ents, hsort, hrun, hsol⟩ := h
  have B := H.base
  obtain ⟨M, bu, Gs, CT, VC, hM, hst, hos, -⟩ := runSetup_ok hrun
  obtain ⟨M', hM', hread⟩ := potArrays_read B.tensor B.valid B.basis B.mid V env.junkV env.initV
  rw [show potArrays X.x.p X.x.g V env.junkV env.initV w.states = some M from hM] at hM'; cases hM'
  have hhold : HoldsPotential X.x.p X.x.g V w.states (fun b i => M (b, i)) := hread
  obtain ⟨hch, hsub⟩ := block_channel B.valid B.basis B.channel
  exact H.shallow _ _ _ (basis_of_run B.tensor B.valid B.basis B.pgrid B.hermitian hhold B.lapack hst hch hsub X.x.Nq)

theorem C39_lengths {X : ProgramInput} {w : PWSpace} {computed : Bool} {g : Gsl} {m : Quad} {P123 : List (Entry ℝ)} {env : RunEnv} {chn : Int} {V : PotModel}
    (H : SolveHyps X w computed g m P123 env chn V) {s : RunSetup} {U UBU : Nat → Option ℂ} (h : RunChannel { X.x with pot := V } env w chn.toNat P123 s U UBU)
    (hEb : -(Mn + Mp) < s.swp.Eb) : s.os.Ecom.length = s.os.Tlab.length := by
  obtain ⟨ents, hsort, hrun, hsol⟩ := h
  obtain ⟨M, bu, Gs, CT, VC, hM, hst, hos, -⟩ := runSetup_ok hrun
  obtain ⟨-, ⟨bins, -, ht1, ht2, -⟩, -⟩ := C39_on_shell_rows X.x.Nq X.x.q H.base.qgrid s.swp.Eb hEb X.x.Tlab s.os hos
  omega

/-- The lengths of the lists of a run and what the table's rows are. -/
theorem table_of_run {X : ProgramInput} {w : PWSpace} {computed : Bool} {g : Gsl} {m : Quad} {P123 : List (Entry ℝ)} {env : RunEnv} {chn : Int} {V : PotModel}
    (H : SolveHyps X w computed g m P123 env chn V) {s : RunSetup} {U UBU : Nat → Option ℂ} (h : RunChannel { X.x with pot := V } env w chn.toNat P123 s U UBU) :
    AmplitudeFile X.x.dense X.x.p.isoBreak X.x.g V (w.block chn.toNat) X.x.Nq X.x.q X.x.Tlab (gridOperator g X.x.grid m (w.block chn.toNat)) (elasticTable s U) := by
  have h' := h
  obtain ⟨ents, hsort, hrun, hsol⟩ := h'
  have B := H.base
  have hNp : 0 < X.x.g.Np := by have : 3 ≤ X.x.g.Np := B.bins; omega
  obtain ⟨M, bu, Gs, CT, VC, hM, hst, hos, hbu, hGs, hCT, hVC, -, hV, hcfg⟩ := runSetup_ok hrun
  have hEb := shallow_run H h
  obtain ⟨hpw, ⟨bins, -, ht1, ht2, -⟩, hq1, hq2, hqi⟩ := C39_on_shell_rows X.x.Nq X.x.q B.qgrid s.swp.Eb hEb X.x.Tlab s.os hos
  have hqcom := (findOnShell_ok hos).2.1
  obtain ⟨deut0, hd0, hdl⟩ := deut_list B.valid B.basis B.channel
  have hT : (elasticTable s U).map (·.1) = s.os.Tlab := by
    unfold elasticTable
    rw [List.map_map]
    refine List.ext_getElem (by simp) fun k h1 h2 => ?_
    simp [List.getD_eq_getElem?_getD, List.getElem?_eq_getElem h2]
  have hcover : RowsCover X.x.Nq X.x.q s.swp.Eb X.x.Tlab (elasticTable s U) := by
    refine ⟨by rw [hT]; exact hpw, fun T hTm t0 t1 hN h0 h1 hlo hhi => ?_⟩
    obtain ⟨i, a, b, e1, e2, e3, e4, e5, e6, e7⟩ := C38_bracketed X.x.Nq X.x.q B.qgrid s.swp.Eb hEb X.x.Tlab s.os hos T hTm t0 t1 hN h0 h1 hlo hhi
    rw [← hT] at e4 e5
    obtain ⟨ra, ha, rfl⟩ := List.mem_map.1 e4
    obtain ⟨rb, hb, rfl⟩ := List.mem_map.1 e5
    exact ⟨i, e1, ra, ha, rb, hb, e2, e3, e6, e7⟩
  have hlen : s.cfg.deut.length = deut0.length := by rw [hcfg]; dsimp only; rw [hdl, List.length_map]
  have key : ∀ k, k < s.os.Tlab.length → ∃ T E, s.os.Tlab[k]? = some T ∧ s.os.Ecom[k]? = some E ∧ s.os.Tlab.getD k 0 = T ∧ s.os.Ecom.getD k 0 = E ∧
      ∀ qb : Fin X.x.Nq, IsOnShellPoint X.x.Nq X.x.q s.swp.Eb T E qb → s.os.qIdx.getD k 0 = qb := by
    intro k hk
    have hkE : k < s.os.Ecom.length := by omega
    have hkq : k < s.os.qIdx.length := by omega
    have hkc : k < s.os.qcom.length := by omega
    refine ⟨_, _, List.getElem?_eq_getElem hk, List.getElem?_eq_getElem hkE, ?_, ?_, ?_⟩
    · rw [List.getD_eq_getElem?_getD, List.getElem?_eq_getElem hk]; rfl
    · rw [List.getD_eq_getElem?_getD, List.getElem?_eq_getElem hkE]; rfl
    · intro qb hqb
      rw [List.getD_eq_getElem?_getD, List.getElem?_eq_getElem hkq]
      obtain ⟨r1, r2, r3⟩ := hqi k hkq hkc
      have hqc : s.os.qcom[k] = labEnergyToComMomentum (s.os.Tlab[k]) s.swp.Eb := by simp only [hqcom, List.getElem_map]
      rw [hqc] at r2 r3
      exact bin_unique B.qgrid r1 qb.2 r2 r3 hqb.2.1 hqb.2.2
  refine ⟨s.swp.Eb, hcover, deut0, hd0, ?_⟩
  intro row hrow
  obtain ⟨k, hk, rfl⟩ := List.mem_map.1 hrow
  have hk := List.mem_range.1 hk
  obtain ⟨T, E, k1, k2, k3, k4, k5⟩ := key k hk
  obtain ⟨-, c2, c3⟩ := C49_columns U deut0.length s.os.Tlab.length k
  dsimp only
  rw [k3, k4, hlen]
  by_cases hd : X.x.dense = true
  · obtain ⟨deut, hdl', hall⟩ := C87_direct B H.source hd h hEb
    obtain rfl := deut_unique hd0 hdl'
    obtain ⟨qb, A, G, a1, a2, a3⟩ := hall k T E k1 k2
    refine ⟨qb, A, G, a1, k5 qb a1, a2, c3, ?_⟩
    rw [if_pos hd]
    intro hdet
    obtain ⟨Y, b1, b2⟩ := a3 hdet
    refine ⟨Y, b1, fun i j p0 hp => ?_⟩
    obtain rfl : p0 = ⟨0, hNp⟩ := Fin.ext hp
    rw [c2 i j i.2 j.2, b2 i j]
  · have both : ∃ qb A G, IsOnShellPoint X.x.Nq X.x.q s.swp.Eb T E qb ∧
        FaddeevProblem X.x.p.isoBreak X.x.g V (w.block chn.toNat) X.x.Nq X.x.q s.swp.Eb E (gridOperator g X.x.grid m (w.block chn.toNat)) A G ∧
        ∀ i j : Fin deut0.length, ∃ n ≤ 14, ∃ pp qq : ℂ[X],
          IsPade (fun m => neumannTerm A G m (deut0.get i, qb, ⟨0, hNp⟩) (deut0.get j, qb, ⟨0, hNp⟩)) n n pp qq ∧ qq.eval 1 ≠ 0 ∧
          U (i * deut0.length * s.os.Tlab.length + j * s.os.Tlab.length + k) = some (pp.eval 1 / qq.eval 1) := by
      by_cases hb : X.x.breakup = false
      · obtain ⟨deut, hdl', hall⟩ := C87_iterative B H.source (by simpa using hd) hb h hEb
        obtain rfl := deut_unique hd0 hdl'
        exact hall k T E k1 k2
      · obtain ⟨deut, hdl', v, off, -, t, st, ro, co, -, -, hall⟩ := C116_iterative B H.source (by simpa using hd) (by simpa using hb) h hEb
          (((H.solver.resolve_left hd).resolve_left hb) s U UBU h) hNp (fun _ => 0)
        obtain rfl := deut_unique hd0 hdl'
        obtain ⟨qb, A, G, a1, a2, a3, -⟩ := hall k T E k1 k2
        exact ⟨qb, A, G, a1, a2, a3⟩
    obtain ⟨qb, A, G, a1, a2, a3⟩ := both
    refine ⟨qb, A, G, a1, k5 qb a1, a2, c3, ?_⟩
    rw [if_neg hd]
    intro i j p0 hp
    obtain rfl : p0 = ⟨0, hNp⟩ := Fin.ext hp
    obtain ⟨n, hn, pp, qq, b1, b2, b3⟩ := a3 i j
    refine ⟨n, hn, pp, qq, b1, b2, ?_⟩
    rw [c2 i j i.2 j.2, b3]

theorem breakupNames_distinct (X : ProgramInput) (c p c' p' : Int) (hne : (c, p) ≠ (c', p')) : breakupFileName X c p ≠ breakupFileName X c' p' := by
  intro h
  obtain ⟨-, -, e1, e2, -, e3⟩ := C14_U_breakup_file_injective _ _ _ _ _ _ _ _ _ _ _ _ _ h
  have : amplitudeFileName X c p = amplitudeFileName X c' p' := by unfold amplitudeFileName; rw [e1, e2, e3]
  exact C14_jobs_distinct_files _ _ _ _ _ _ _ _ hne this

/-- What one solve writes. -/
theorem stored {X : ProgramInput} {w : PWSpace} {chn psi : Int} {s : RunSetup} {U UBU : Nat → Option ℂ} {qOut : Int → ℝ} {files files1 : Files}
    (h : storeResults X w chn psi s U UBU qOut files = some files1) :
    files1 (elasticName X w chn psi) = some (.elastic (elasticTable s U)) ∧
    (X.x.breakup = true → ∃ t, breakupOf X.x w chn.toNat s UBU qOut = some t ∧ files1 (breakupName X w chn psi) = some (.breakup t)) ∧
    ∀ n, n ≠ elasticName X w chn psi → (X.x.breakup = true → n ≠ breakupName X w chn psi) → files1 n = files n := by
  have hne : elasticName X w chn psi ≠ breakupName X w chn psi := (C14_kinds_distinct _ _ _ _ _ _ _ _ _ _ _ _ _ 0).1
  unfold storeResults at h
  dsimp only at h
  by_cases hb : X.x.breakup = true
  · rw [if_pos hb] at h
    obtain ⟨t, ht, rfl⟩ := Option.map_eq_some_iff.1 h
    refine ⟨?_, fun _ => ⟨t, ht, ?_⟩, fun n h1 h2 => ?_⟩
    · unfold writeFile; rw [if_neg hne, if_pos rfl]
    · unfold writeFile; rw [if_pos rfl]
    · unfold writeFile; rw [if_neg (h2 hb), if_neg h1]
  · rw [if_neg hb] at h
    cases h
    refine ⟨?_, fun h => absurd h hb, fun n h1 _ => ?_⟩
    · unfold writeFile; rw [if_pos rfl]
    · unfold writeFile; rw [if_neg h1]

/-- The files after the loop. -/
theorem loop_files {X : ProgramInput} {w : PWSpace} {P123 : Nat → List (Entry ℝ)} {env : Int → Int → RunEnv} {tr : List (Work × PotModel)} {files files' : Files}
    (h : ProgramLoop X w P123 env tr files files')
    (hname : ∀ chn psi V, (Work.solve chn psi, V) ∈ tr → elasticName X w chn psi = amplitudeFileName X chn psi ∧ breakupName X w chn psi = breakupFileName X chn psi) :
    (∀ chn psi, Work.solve chn psi ∈ tr.map (·.1) → ∃ V s U UBU qOut, (Work.solve chn psi, V) ∈ tr ∧
      RunChannel { X.x with pot := V } (env chn psi) w chn.toNat (P123 chn.toNat) s U UBU ∧ files' (amplitudeFileName X chn psi) = some (.elastic (elasticTable s U)) ∧
      (X.x.breakup = true → ∃ t, breakupOf X.x w chn.toNat s UBU qOut = some t ∧ files' (breakupFileName X chn psi) = some (.breakup t))) ∧
    ∀ n, (∀ chn psi, Work.solve chn psi ∈ tr.map (·.1) → n ≠ amplitudeFileName X chn psi ∧ (X.x.breakup = true → n ≠ breakupFileName X chn psi)) → files' n = files n := by
  induction h with
  | done files => exact ⟨by simp, fun _ _ => rfl⟩
  | @solve chn psi V tr files files1 files' s U UBU qOut hr hst _ ih =>
    obtain ⟨ih1, ih2⟩ := ih fun c p V' hm => hname c p V' (List.mem_cons_of_mem _ hm)
    obtain ⟨n1, n2⟩ := hname chn psi V (List.mem_cons_self ..)
    obtain ⟨s1, s2, s3⟩ := stored hst
    rw [n1] at s1 s3
    rw [n2] at s2 s3
    refine ⟨fun c p hm => ?_, fun n hn => ?_⟩
    · by_cases ht : Work.solve c p ∈ tr.map (·.1)
      · obtain ⟨V', s', U', UB', q', i1, i2, i3, i4⟩ := ih1 c p ht
        exact ⟨V', s', U', UB', q', List.mem_cons_of_mem _ i1, i2, i3, i4⟩
      · rw [List.map_cons, List.mem_cons] at hm
        obtain e | hm := hm
        · cases e
          have other : ∀ c' p', Work.solve c' p' ∈ tr.map (·.1) → (chn, psi) ≠ (c', p') := by
            intro c' p' hm' e
            cases e
            exact ht hm'
          refine ⟨V, s, U, UBU, qOut, List.mem_cons_self .., hr, ?_, fun hb => ?_⟩
          · rw [ih2 (amplitudeFileName X chn psi) fun c' p' hm' => ⟨C14_jobs_distinct_files _ _ _ _ _ _ _ _ (other c' p' hm'), fun _ => (C14_kinds_distinct _ _ _ _ _ _ _ _ _ _ _ _ _ 0).1⟩]
            exact s1
          · obtain ⟨t, t1, t2⟩ := s2 hb
            refine ⟨t, t1, ?_⟩
            rw [ih2 (breakupFileName X chn psi) fun c' p' hm' => ⟨((C14_kinds_distinct _ _ _ _ _ _ _ _ _ _ _ _ _ 0).1).symm, fun _ => breakupNames_distinct X _ _ _ _ (other c' p' hm')⟩]
            exact t2
        · exact absurd hm ht
    · rw [ih2 n fun c p hm => hn c p (List.mem_cons_of_mem _ hm)]
      obtain ⟨h1, h2⟩ := hn chn psi (by simp)
      exact s3 n h1 h2

/-- What the files are after a run with the potentials of `tr`. -/
theorem loop_spec {X : ProgramInput} {w : PWSpace} {computed : Bool} {g : Gsl} {m : Quad} {P123 : Nat → List (Entry ℝ)} {env : Int → Int → RunEnv} {tr : List (Work × PotModel)}
    {files files' : Files} (h : ProgramLoop X w P123 env tr files files')
    (H : ∀ chn psi V, (Work.solve chn psi, V) ∈ tr → SolveHyps X w computed g m (P123 chn.toNat) (env chn psi) chn V) :
    (∀ chn psi, Work.solve chn psi ∈ tr.map (·.1) → ∃ V t, (Work.solve chn psi, V) ∈ tr ∧ files' (amplitudeFileName X chn psi) = some (.elastic t) ∧
      AmplitudeFile X.x.dense X.x.p.isoBreak X.x.g V (w.block chn.toNat) X.x.Nq X.x.q X.x.Tlab (gridOperator g X.x.grid m (w.block chn.toNat)) t ∧
      (X.x.breakup = true → ∃ tb, files' (breakupFileName X chn psi) = some (.breakup tb) ∧
        BreakupFile X.x.dense X.x.p.isoBreak X.x.g V (w.block chn.toNat) X.x.Nq X.x.q (gridOperator g X.x.grid m (w.block chn.toNat)) t tb)) ∧
    ∀ n, (∀ chn psi, Work.solve chn psi ∈ tr.map (·.1) → n ≠ amplitudeFileName X chn psi ∧ (X.x.breakup = true → n ≠ breakupFileName X chn psi)) → files' n = files n := by
  obtain ⟨k1, k2⟩ := loop_files h fun chn psi V hm => run_name (H chn psi V hm).base (H chn psi V hm).nonneg psi
  refine ⟨fun chn psi hm => ?_, k2⟩
  obtain ⟨V, s, U, UBU, qOut, i1, i2, i3, i4⟩ := k1 chn psi hm
  have HV := H chn psi V i1
  refine ⟨V, _, i1, i3, table_of_run HV i2, fun hb => ?_⟩
  obtain ⟨t, t1, t2⟩ := i4 hb
  refine ⟨t, t2, breakup_file (x := { X.x with pot := V }) HV.base HV.source hb i2 (shallow_run HV i2) ?_ t1⟩
  rcases HV.solver with hd | hd | hd
  · exact Or.inl hd
  · rw [hb] at hd; cases hd
  · exact Or.inr (hd s U UBU i2)

theorem run_trace {pe : PotEnv} {fresh : Nat → ℝ} {name : Str} {stod : Str → Option ℝ} {lines : List Str} {cfg : DriverCfg} {nChn : Nat} {tr : List (Work × PotModel)}
    (h : runPotentials pe fresh name stod lines cfg nChn = some tr) : ∃ ws, mainWork cfg nChn = some ws := by
  unfold runPotentials at h
  cases hk : potKind name with
  | none => rw [hk] at h; cases h
  | some k =>
    rw [hk, Option.bind_some] at h
    obtain ⟨dn, -, h⟩ := Option.bind_eq_some_iff.1 h
    obtain ⟨ws, hws, -⟩ := Option.bind_eq_some_iff.1 h
    exact ⟨ws, hws⟩

/-- **C115.** A parameter walk of a whole run with a chiral model, from the parameter file to the files of amplitudes. When the run has come to its end, for every channel and every
parameter set of its work the file named after channel and set holds the amplitudes of the discretised Faddeev problem of that channel with the force whose constants are the numbers
in that line of the parameter file; every other file is as it was before. -/
theorem C115_walk {pe : PotEnv} (hr : ∀ xw ∈ pe.rule, |xw.1| ≤ 1) {fresh : Nat → ℝ} {m : ChiralModel} {stod : Str → Option ℝ} {val : Str → ℝ} {n : Nat} (hn : m.columns ≤ n)
    {rows : List (List Str)} (hrows : rows ≠ []) (hlen : ∀ r ∈ rows, r.length = n) (hsp : ∀ r ∈ rows, ∀ t ∈ r, ' ' ∉ t) (hval : ∀ r ∈ rows, ∀ t ∈ r, stod t = some (val t))
    {X : ProgramInput} (hname : X.name = chiralName m) (hlines : X.lines = rows.map joinSpace) (hwalk : X.cfg.parameterWalk = true) (h0 : 0 ≤ X.cfg.psiStart)
    (hend : X.cfg.psiEnd ≤ rows.length) {w : PWSpace} {ws : List Work} (hws : mainWork X.cfg w.nChn = some ws)
    {computed : Bool} {g : Gsl} {quad : Quad} {P123 : Nat → List (Entry ℝ)} {env : Int → Int → RunEnv} {files files' : Files}
    (H : ∀ chn psi row, Work.solve chn psi ∈ ws → rows[psi.toNat]? = some row →
      SolveHyps X w computed g quad (P123 chn.toNat) (env chn psi) chn (chiralModel pe.rule pe.prof (preset m fun i => (row.map val).getD i 0)))
    (h : ProgramRun pe fresh stod X w P123 env files files') :
    (∀ chn psi, Work.solve chn psi ∈ ws → ∃ row V t, rows[psi.toNat]? = some row ∧
      (∀ qi qo S J Lo Li T Tz, Waves S J Lo Li T → |Tz| ≤ T → J ≤ 38 →
        phase Lo Li * V qi qo (decide (Lo ≠ J)) S J T Tz (component S Lo Li J) = cutElement pe.rule pe.prof m (fun i => (row.map val).getD i 0) S J Lo Li T Tz qo qi) ∧
      files' (amplitudeFileName X chn psi) = some (.elastic t) ∧
      AmplitudeFile X.x.dense X.x.p.isoBreak X.x.g V (w.block chn.toNat) X.x.Nq X.x.q X.x.Tlab (gridOperator g X.x.grid quad (w.block chn.toNat)) t ∧
      (X.x.breakup = true → ∃ tb, files' (breakupFileName X chn psi) = some (.breakup tb) ∧
        BreakupFile X.x.dense X.x.p.isoBreak X.x.g V (w.block chn.toNat) X.x.Nq X.x.q (gridOperator g X.x.grid quad (w.block chn.toNat)) t tb)) ∧
    ∀ name, (∀ chn psi, Work.solve chn psi ∈ ws → name ≠ amplitudeFileName X chn psi ∧ (X.x.breakup = true → name ≠ breakupFileName X chn psi)) → files' name = files name := by
  obtain ⟨-, tr, htr, hloop⟩ := h
  obtain ⟨tr', h1, h2, h3⟩ := C96_extra_columns pe fresh m stod val n hn rows hrows hlen hsp hval X.cfg hwalk h0 hend w.nChn ws hws
  rw [hname, hlines, h1] at htr
  cases htr
  have hmem : ∀ chn psi, Work.solve chn psi ∈ tr.map (·.1) ↔ Work.solve chn psi ∈ ws := by
    intro chn psi
    rw [h2, List.mem_filter]
    simp [isSolve]
  obtain ⟨k1, k2⟩ := loop_spec (computed := computed) (g := g) (m := quad) hloop fun chn psi V hV => by
    obtain ⟨row, e1, rfl⟩ := h3 chn psi V hV
    exact H chn psi row ((hmem _ _).1 (List.mem_map.2 ⟨_, hV, rfl⟩)) e1
  refine ⟨fun chn psi hm => ?_, fun name hnm => k2 name fun chn psi hm => hnm chn psi ((hmem _ _).1 hm)⟩
  obtain ⟨V, t, e1, e2, e3⟩ := k1 chn psi ((hmem _ _).2 hm)
  obtain ⟨row, e4, rfl⟩ := h3 chn psi V e1
  exact ⟨row, _, t, e4, fun qi qo S J Lo Li T Tz hw hz hJ => chiral_value m _ pe.rule hr pe.prof qi qo S J Lo Li T Tz hw hz hJ, e2, e3⟩

/-- **C115, without a walk.** The same for a run with fixed constants: every channel of the work, one file, the force of the potential object. -/
theorem C115_fixed {pe : PotEnv} {fresh : Nat → ℝ} {stod : Str → Option ℝ} {X : ProgramInput} {k : PotKind} (hname : potKind X.name = some k) (hwalk : X.cfg.parameterWalk = false)
    {w : PWSpace} {ws : List Work} (hws : mainWork X.cfg w.nChn = some ws) {computed : Bool} {g : Gsl} {quad : Quad} {P123 : Nat → List (Entry ℝ)}
    {env : Int → Int → RunEnv} {files files' : Files}
    (H : ∀ chn psi, Work.solve chn psi ∈ ws → SolveHyps X w computed g quad (P123 chn.toNat) (env chn psi) chn (potOf pe (fetchPot fresh k)))
    (h : ProgramRun pe fresh stod X w P123 env files files') :
    (∀ chn psi, Work.solve chn psi ∈ ws → ∃ t, files' (amplitudeFileName X chn psi) = some (.elastic t) ∧
      AmplitudeFile X.x.dense X.x.p.isoBreak X.x.g (potOf pe (fetchPot fresh k)) (w.block chn.toNat) X.x.Nq X.x.q X.x.Tlab
        (gridOperator g X.x.grid quad (w.block chn.toNat)) t ∧
      (X.x.breakup = true → ∃ tb, files' (breakupFileName X chn psi) = some (.breakup tb) ∧
        BreakupFile X.x.dense X.x.p.isoBreak X.x.g (potOf pe (fetchPot fresh k)) (w.block chn.toNat) X.x.Nq X.x.q (gridOperator g X.x.grid quad (w.block chn.toNat)) t tb)) ∧
    ∀ name, (∀ chn psi, Work.solve chn psi ∈ ws → name ≠ amplitudeFileName X chn psi ∧ (X.x.breakup = true → name ≠ breakupFileName X chn psi)) → files' name = files name := by
  obtain ⟨-, tr, htr, hloop⟩ := h
  obtain ⟨tr', h1, h2, h3⟩ := trace_plain pe [] 0 (fetchPot fresh k) ws
  have e : runPotentials pe fresh X.name stod X.lines X.cfg w.nChn = some tr' := by
    unfold runPotentials
    rw [hname, Option.bind_some, hwalk, hws]
    exact h1
  rw [e] at htr
  cases htr
  have hmem : ∀ chn psi, Work.solve chn psi ∈ tr.map (·.1) ↔ Work.solve chn psi ∈ ws := by
    intro chn psi
    rw [h2, List.mem_filter]
    simp [isSolve]
  obtain ⟨k1, k2⟩ := loop_spec (computed := computed) (g := g) (m := quad) hloop fun chn psi V hV => by
    rw [h3 _ V hV]
    exact H chn psi ((hmem _ _).1 (List.mem_map.2 ⟨_, hV, rfl⟩))
  refine ⟨fun chn psi hm => ?_, fun name hnm => k2 name fun chn psi hm => hnm chn psi ((hmem _ _).1 hm)⟩
  obtain ⟨V, t, e1, e2, e3⟩ := k1 chn psi ((hmem _ _).2 hm)
  rw [h3 _ V e1] at e3
  exact ⟨t, e2, e3⟩

theorem table_congr {s s' : RunSetup} {U U' : Nat → Option ℂ} (ho : s.os = s'.os) (hd : s.cfg.deut.length = s'.cfg.deut.length)
    (h : ∀ k < s.os.Tlab.length, ∀ r < s.cfg.deut.length, ∀ c < s.cfg.deut.length,
      U (r * s.cfg.deut.length * s.os.Tlab.length + c * s.os.Tlab.length + k) = U' (r * s.cfg.deut.length * s.os.Tlab.length + c * s.os.Tlab.length + k)) :
    elasticTable s U = elasticTable s' U' := by
  unfold elasticTable
  rw [← ho, ← hd]
  refine List.map_congr_left fun k hk => ?_
  have hk := List.mem_range.1 hk
  congr 3
  unfold uRow
  refine List.flatMap_congr fun r hr => List.map_congr_left fun c hc => ?_
  exact h k hk r (List.mem_range.1 hr) c (List.mem_range.1 hc)

/-- Two solves of the same channel with the same force, on whatever machines. -/
theorem same_table {X X' : ProgramInput} (hx : X.x = X'.x) {w : PWSpace} {computed computed' : Bool} {g : Gsl} {m : Quad} {P123 P123' : List (Entry ℝ)} {env env' : RunEnv} {chn : Int}
    {V : PotModel} (hsolver : X.x.dense = true ∨ X.x.breakup = false) (H : SolveHyps X w computed g m P123 env chn V) (H' : SolveHyps X' w computed' g m P123' env' chn V)
    (hu : if X.x.dense then ∀ Eb E A G, FaddeevProblem X.x.p.isoBreak X.x.g V (w.block chn.toNat) X.x.Nq X.x.q Eb E (gridOperator g X.x.grid m (w.block chn.toNat)) A G →
        (1 - A * Matrix.diagonal G).det ≠ 0 else env.pade.pa (-1) = env'.pade.pa (-1))
    {s s' : RunSetup} {U UBU U' UBU' : Nat → Option ℂ} (h : RunChannel { X.x with pot := V } env w chn.toNat P123 s U UBU)
    (h' : RunChannel { X'.x with pot := V } env' w chn.toNat P123' s' U' UBU') : elasticTable s U = elasticTable s' U' := by
  obtain ⟨X', F', N', L', C'⟩ := X'
  obtain rfl : X.x = X' := hx
  obtain ⟨R, hop⟩ := run_of_source H.base H.source
  obtain ⟨R', hop'⟩ := run_of_source H'.base H'.source
  have hP := hop.trans hop'.symm
  have hlen : ∃ deut0 : List (Fin (w.block chn.toNat).length), IsDeuteronList (w.block chn.toNat) deut0 ∧ s.cfg.deut.length = deut0.length ∧ s'.cfg.deut.length = deut0.length := by
    obtain ⟨_, _, hrun, _⟩ := h
    obtain ⟨_, _, hrun', _⟩ := h'
    obtain ⟨_, _, _, _, _, _, _, _, _, _, _, _, _, _, hcfg⟩ := runSetup_ok hrun
    obtain ⟨_, _, _, _, _, _, _, _, _, _, _, _, _, _, hcfg'⟩ := runSetup_ok hrun'
    obtain ⟨deut0, hd0, hdl⟩ := deut_list H.base.valid H.base.basis H.base.channel
    refine ⟨deut0, hd0, ?_, ?_⟩
    · rw [hcfg]; dsimp only; rw [hdl, List.length_map]
    · rw [hcfg']; dsimp only; rw [hdl, List.length_map]
  have hEb : -(Mn + Mp) < s.swp.Eb := shallow_run H h
  obtain ⟨deut0, hd0, l1, l2⟩ := hlen
  by_cases hd : X.x.dense = true
  · rw [if_pos hd] at hu
    obtain ⟨-, ho, deut, hdl, hall⟩ := C89_direct R R' hP hd h h' hEb
    obtain rfl := deut_unique hd0 hdl
    refine table_congr ho (l1.trans l2.symm) ?_
    rw [l1]
    intro k hk r hr c hc
    have hos := C39_lengths H h hEb
    obtain ⟨u, e1, e2⟩ := hall k _ (List.getElem?_eq_getElem (by omega)) (fun A G hF => hu _ _ A G (by rw [hop] at hF; exact hF)) ⟨r, hr⟩ ⟨c, hc⟩
    rw [e1, e2]
  · rw [if_neg hd] at hu
    obtain ⟨-, ho, deut, hdl, hall⟩ := C89_iterative R R' hP (by simpa using hd) (hsolver.resolve_left hd) hu h h' hEb
    obtain rfl := deut_unique hd0 hdl
    refine table_congr ho (l1.trans l2.symm) ?_
    rw [l1]
    intro k hk r hr c hc
    obtain ⟨u, e1, e2⟩ := hall k hk ⟨r, hr⟩ ⟨c, hc⟩
    rw [e1, e2]

/-- **C115, split.** Two runs of a parameter walk on the same input and the same lines of the parameter file - a run over everything and a job for one channel and a part of the sets, say -
on machines that differ in LAPACK's eigenvectors, in the contents of fresh memory and in the order of threads, one computing the permutation matrix and the other reading it: for every
channel and set that both do, the two files are equal (direct solver: if the equations have one solution; iterative: if the memory cell that the solver reads before its array is the
same, see `C89_memory_dependent`). -/
theorem C115_split {pe : PotEnv} {fresh fresh₂ : Nat → ℝ} {m : ChiralModel} {stod : Str → Option ℝ} {val : Str → ℝ} {n : Nat} (hn : m.columns ≤ n)
    {rows : List (List Str)} (hrows : rows ≠ []) (hlen : ∀ r ∈ rows, r.length = n) (hsp : ∀ r ∈ rows, ∀ t ∈ r, ' ' ∉ t) (hval : ∀ r ∈ rows, ∀ t ∈ r, stod t = some (val t))
    {X : ProgramInput} (hname : X.name = chiralName m) (hlines : X.lines = rows.map joinSpace) (folder₂ : Str) (cfg₂ : DriverCfg) (hsolver : X.x.dense = true ∨ X.x.breakup = false)
    (hwalk : X.cfg.parameterWalk = true ∧ cfg₂.parameterWalk = true) (h0 : 0 ≤ X.cfg.psiStart ∧ 0 ≤ cfg₂.psiStart)
    (hend : X.cfg.psiEnd ≤ rows.length ∧ cfg₂.psiEnd ≤ rows.length) {w : PWSpace} {ws ws₂ : List Work} (hws : mainWork X.cfg w.nChn = some ws) (hws₂ : mainWork cfg₂ w.nChn = some ws₂)
    {computed computed₂ : Bool} {g : Gsl} {quad : Quad} {P123 P123₂ : Nat → List (Entry ℝ)} {env env₂ : Int → Int → RunEnv} {files files' files₂ files₂' : Files}
    (H : ∀ chn psi row, Work.solve chn psi ∈ ws → rows[psi.toNat]? = some row →
      SolveHyps X w computed g quad (P123 chn.toNat) (env chn psi) chn (chiralModel pe.rule pe.prof (preset m fun i => (row.map val).getD i 0)))
    (H₂ : ∀ chn psi row, Work.solve chn psi ∈ ws₂ → rows[psi.toNat]? = some row →
      SolveHyps { X with folder := folder₂, cfg := cfg₂ } w computed₂ g quad (P123₂ chn.toNat) (env₂ chn psi) chn
        (chiralModel pe.rule pe.prof (preset m fun i => (row.map val).getD i 0)))
    (hu : ∀ chn psi row, Work.solve chn psi ∈ ws → Work.solve chn psi ∈ ws₂ → rows[psi.toNat]? = some row →
      if X.x.dense then ∀ Eb E A G, FaddeevProblem X.x.p.isoBreak X.x.g (chiralModel pe.rule pe.prof (preset m fun i => (row.map val).getD i 0)) (w.block chn.toNat) X.x.Nq X.x.q Eb E
          (gridOperator g X.x.grid quad (w.block chn.toNat)) A G → (1 - A * Matrix.diagonal G).det ≠ 0
      else (env chn psi).pade.pa (-1) = (env₂ chn psi).pade.pa (-1))
    (h : ProgramRun pe fresh stod X w P123 env files files')
    (h₂ : ProgramRun pe fresh₂ stod { X with folder := folder₂, cfg := cfg₂ } w P123₂ env₂ files₂ files₂') :
    ∀ chn psi, Work.solve chn psi ∈ ws → Work.solve chn psi ∈ ws₂ → ∃ t, files' (amplitudeFileName X chn psi) = some (.elastic t) ∧
      files₂' (amplitudeFileName { X with folder := folder₂ } chn psi) = some (.elastic t) := by
  intro chn psi hm hm₂
  have key : ∀ {fresh : Nat → ℝ} {X : ProgramInput} (hname : X.name = chiralName m) (hlines : X.lines = rows.map joinSpace) (hwalk : X.cfg.parameterWalk = true) (h0 : 0 ≤ X.cfg.psiStart)
      (hend : X.cfg.psiEnd ≤ rows.length) {ws : List Work} (hws : mainWork X.cfg w.nChn = some ws) {computed : Bool} {P123 : Nat → List (Entry ℝ)} {env : Int → Int → RunEnv}
      {files files' : Files}
      (H : ∀ chn psi row, Work.solve chn psi ∈ ws → rows[psi.toNat]? = some row →
        SolveHyps X w computed g quad (P123 chn.toNat) (env chn psi) chn (chiralModel pe.rule pe.prof (preset m fun i => (row.map val).getD i 0)))
      (h : ProgramRun pe fresh stod X w P123 env files files'), Work.solve chn psi ∈ ws → ∃ row s U UBU, rows[psi.toNat]? = some row ∧
      RunChannel { X.x with pot := chiralModel pe.rule pe.prof (preset m fun i => (row.map val).getD i 0) } (env chn psi) w chn.toNat (P123 chn.toNat) s U UBU ∧
      files' (amplitudeFileName X chn psi) = some (.elastic (elasticTable s U)) := by
    intro fresh X hname hlines hwalk h0 hend ws hws computed P123 env files files' H h hm
    obtain ⟨-, tr, htr, hloop⟩ := h
    obtain ⟨tr', h1, h2, h3⟩ := C96_extra_columns pe fresh m stod val n hn rows hrows hlen hsp hval X.cfg hwalk h0 hend w.nChn ws hws
    rw [hname, hlines, h1] at htr
    cases htr
    have hmem : ∀ chn psi, Work.solve chn psi ∈ tr.map (·.1) ↔ Work.solve chn psi ∈ ws := by
      intro chn psi
      rw [h2, List.mem_filter]
      simp [isSolve]
    obtain ⟨k1, -⟩ := loop_files hloop fun c p V hV => by
      obtain ⟨row, e1, rfl⟩ := h3 c p V hV
      have := H c p row ((hmem _ _).1 (List.mem_map.2 ⟨_, hV, rfl⟩)) e1
      exact run_name this.base this.nonneg p
    obtain ⟨V, s, U, UBU, qOut, i1, i2, i3, -⟩ := k1 chn psi ((hmem _ _).2 hm)
    obtain ⟨row, e1, rfl⟩ := h3 _ _ V i1
    exact ⟨row, s, U, UBU, e1, i2, i3⟩
  obtain ⟨row, s, U, UBU, e1, e2, e3⟩ := key hname hlines hwalk.1 h0.1 hend.1 hws H h hm
  obtain ⟨row₂, s₂, U₂, UBU₂, f1, f2, f3⟩ := key (X := { X with folder := folder₂, cfg := cfg₂ }) hname hlines hwalk.2 h0.2 hend.2 hws₂ H₂ h₂ hm₂
  rw [e1] at f1
  cases f1
  refine ⟨_, e3, f3.trans ?_⟩
  rw [same_table (X := X) (X' := { X with folder := folder₂, cfg := cfg₂ }) rfl hsolver (H chn psi row hm e1) (H₂ chn psi row hm₂ e1) (hu chn psi row hm hm₂ e1) e2 f2]

end TicTac
end
