import Verif.Props.RunBreakup2
import Verif.Props.BreakupShell
import Verif.Props.PermutationExample
/-! Non-vacuity of C116: a complete run with breakup above the threshold. -/
noncomputable section
namespace TicTac
open Spec Classical

/-- Acceptance of an element whose series vanishes. -/
theorem accepted_zero {PA : Nat → Option ℂ} (h0 : PA 0 = some 0) (h1 : ∀ k, PA (k + 1) = none) (NM : Nat) : AcceptedAt (some 0) PA NM ↔ 5 ≤ NM := by
  have hch : ∀ l, changeAt (some 0) PA l = none := by
    intro l
    cases l with
    | zero =>
      unfold changeAt
      rw [h0]
      unfold change
      simp
    | succ k =>
      show change (PA (k + 1)) (PA k) = none
      rw [h1]
      rfl
  constructor
  · rintro ⟨k, d, hs, hor⟩
    rcases hs with ⟨-, h, -⟩ | ⟨rfl, rfl, -⟩
    · rw [hch] at h; cases h
    · rcases hor with h | h | h | ⟨x, hx, h⟩
      · omega
      · omega
      · norm_num at h
      · rw [h0] at hx; cases hx; norm_num at h
  · intro h
    exact ⟨0, 1, Or.inr ⟨rfl, rfl, fun l _ d' hd => by rw [hch] at hd; cases hd⟩, Or.inr (Or.inl (by omega))⟩

section
variable {states : List PWState} {Nq Np : Nat} {c : PadeCfg} {deut : List (Fin states.length)} {qidx : List (Fin Nq)} {sched : List Nat} {hNp : 0 < Np}

/-- With a vanishing kernel the run does not stop by the count when all breakup elements lie in the arrays. -/
theorem zero_count (S : PadeSetup c (0 : Matrix (Idx states.length Nq Np) (Idx states.length Nq Np) ℝ) deut qidx sched hNp) (junk : PadeJunk)
    (h1 : junk.pa (-1) = some 0) (h2 : junk.paBU (-1) = some 0) (hel : elElems c ≠ []) (hbu : buElems c ≠ [])
    (hin : ∀ e ∈ buElems c, ∃ (i : Fin deut.length) (q : Fin qidx.length) (y : Idx states.length Nq Np), ElemIs c e i q y) :
    (padeLoopN c (padeInit c sched junk) 15).numConv ≠ c.numEL := by
  obtain ⟨m0, hm0, hL, aE, aB, -⟩ := padeLoopN_acc S junk 15 le_rfl
  generalize padeLoopN c (padeInit c sched junk) 15 = s at hL aE aB ⊢
  have hPA : ∀ i q y, exactPA c (0 : Matrix (Idx states.length Nq Np) (Idx states.length Nq Np) ℝ) deut qidx hNp i q y 0 = some 0 ∧
      ∀ k, exactPA c (0 : Matrix (Idx states.length Nq Np) (Idx states.length Nq Np) ℝ) deut qidx hNp i q y (k + 1) = none := by
    intro i q y
    have hz : ∀ n, exactTerm c (0 : Matrix (Idx states.length Nq Np) (Idx states.length Nq Np) ℝ) deut qidx hNp i q y n = 0 := by
      intro n
      unfold exactTerm neumannTerm
      have : toC (0 : Matrix (Idx states.length Nq Np) (Idx states.length Nq Np) ℝ) = 0 := by ext a b; simp [toC]
      rw [this, Matrix.zero_mul]; rfl
    refine ⟨?_, fun k => ?_⟩
    · unfold exactPA; rw [padeApproximant_zero, hz]
    · exact pade_constant (fun n => hz _) k
  have hcell : ∀ (cell : Option ℂ) (idx : Nat), cell = some 0 → cellBefore cell idx = some 0 := by
    intro cell idx h; unfold cellBefore; rw [h]; simp
  have key : ∀ (es : List OsElem) (t : OsTab) (cell : Option ℂ) (L : Nat), cell = some 0 → AccInv c (exactPA c 0 deut qidx hNp) cell L m0 es t →
      (∀ e ∈ es, ∃ (i : Fin deut.length) (q : Fin qidx.length) (y : Idx states.length Nq Np), ElemIs c e i q y) → ∀ e ∈ es, (t.conv e.idx = true ↔ 6 ≤ m0) := by
    intro es t cell L hc hA hes e he
    obtain ⟨i, q, y, hy⟩ := hes e he
    obtain ⟨a1, a2⟩ := hA.elem e he i q y hy
    obtain ⟨p0, p1⟩ := hPA i q y
    rw [hcell cell _ hc] at a1 a2
    constructor
    · intro hconv
      obtain ⟨NM, hNM, -, first, hf, -, hacc, -⟩ := a2 hconv
      by_cases h14 : NM < 14
      · rw [hf (Or.inl h14)] at hacc
        have := (accepted_zero p0 p1 NM).1 hacc
        omega
      · omega
    · intro h6
      by_contra hx
      exact a1 (by simpa using hx) 5 (by omega) ((accepted_zero p0 p1 5).2 le_rfl)
  have kE := key _ _ _ _ h1 aE fun e he => by
    obtain ⟨-, i, j, q, h⟩ := el_of_mem S he
    exact ⟨i, q, _, h⟩
  have kB := key _ _ _ _ h2 aB hin
  rw [hL.count, ← numEL_length]
  by_cases h6 : 6 ≤ m0
  · rw [all_convCount fun e he => (kE e he).2 h6, all_convCount fun e he => (kB e he).2 h6]
    have := List.length_pos_iff.2 hbu
    omega
  · have hz : ∀ (t : OsTab) (es : List OsElem), (∀ e ∈ es, (t.conv e.idx = true ↔ 6 ≤ m0)) → convCount t es = 0 := by
      intro t es h
      unfold convCount
      rw [List.length_eq_zero_iff, List.filter_eq_nil_iff]
      intro e he hc
      exact h6 ((h e he).1 hc)
    rw [hz _ _ kE, hz _ _ kB]
    have := List.length_pos_iff.2 hel
    omega

end

namespace Example

/-- Four q bins with boundaries 0, 100, …, 400 MeV. -/
def qB (i : Nat) : ℝ := 100 * i

def inputB : RunInput := { p := par, g := grid, Nq := 4, q := qB, pot := pot, Tlab := [midT qB (-2) 0], dense := false, breakup := true }

def quadB : Quad := { quad with Nx := 0 }

theorem gridB : IsGrid 4 qB := ⟨by simp [qB], fun i _ => by unfold qB; push_cast; linarith⟩

def p123EnvB (states : List PWState) : P123Env where
  sixInit := fun _ => 7
  sixOrder := (sixjTuples (2 * lmaxOf states).toNat).reverse
  cgInit := fun _ => 7
  cgOrder := (cgTuples (2 * lmaxOf states)).reverse
  phiInit := fun _ => 7
  phiOrder := (phiWrites (inputB.grid.input quadB)).reverse
  ovInit := fun _ => true
  ovOrder := (overlapWrites (inputB.grid.input quadB)).reverse
  aJunk := fun _ => 7
  plm1Init := fun _ => 7
  plm2Init := fun _ => 7
  plm3Init := fun _ => 7
  gInit := fun _ => 7

theorem fill_hypsB (states : List PWState) : FillHyps gsl inputB.grid quadB (p123EnvB states) states where
  gsl := gsl_contract
  xIn := by intro k hk; exact absurd hk (Nat.not_lt_zero _)
  zIn := by intro f _; show (-1 : ℝ) < 0 ∧ (0 : ℝ) < 1; norm_num
  qgrid := gridB
  pgrid := ⟨by simp [inputB, RunInput.grid, grid], fun i _ => by simp [inputB, RunInput.grid, grid]⟩
  phiOrder := List.reverse_perm _
  ovOrder := List.reverse_perm _
  sixOrder := List.reverse_perm _
  cgOrder := List.reverse_perm _

theorem fill_runsB (states : List PWState) : ∃ P123 f, FillComputed gsl inputB.grid quadB (p123EnvB states) states P123 f := by
  set c := p123Cfg gsl (inputB.grid.input quadB) (p123EnvB states) states (channelTwoJ states) with hc
  obtain ⟨out, ho⟩ := C85_completes gsl (inputB.grid.input quadB) (p123EnvB states) states (channelTwoJ states) 1 5 (fun _ _ => none) (fun _ => List.range 4)
    (((List.range 4).flatMap (rowElems c)).map fun e => (0, e)) (by
      show ((List.range 1).flatMap fun _ => List.range 4).Perm (List.range 4)
      simp) (by
      refine ⟨by intro ev hev; rw [List.mem_map] at hev; obtain ⟨e, -, rfl⟩ := hev; exact Nat.one_pos, ?_⟩
      intro t ht
      have : t = 0 := by omega
      subst this
      rw [List.filter_eq_self.2 (by intro a ha; rw [List.mem_map] at ha; obtain ⟨e, -, rfl⟩ := ha; simp), List.map_map]
      simp [hc])
  exact ⟨out, _, ho, storeP123_ok _ _ _⟩

theorem operatorB_zero (states : List PWState) : gridOperator gsl inputB.grid quadB states = 0 := by
  ext r k
  unfold gridOperator p123Operator p123Formula
  have : quadB.Nx = 0 := rfl
  simp [this]

/-- On-shell energies of the example: bins 0 and 1, above the breakup threshold and below the third bin. -/
theorem energiesB {os : OnShell} (h : findOnShell 4 qB (-2) [midT qB (-2) 0] = .ok os) :
    os.Ecom ≠ [] ∧ ∀ E ∈ os.Ecom, 0 ≤ E + (-2) ∧ E < ndEnergy 0 (qB 2) := by
  have hEb : -(Mn + Mp) < (-2 : ℝ) := by norm_num [Mn, Mp]
  obtain ⟨e1, e2, e3, -⟩ := findOnShell_ok h
  have hE : os.Ecom = (onShellBins 4 qB (-2) [midT qB (-2) 0]).map (midE qB (-2)) := by
    rw [e3, e2, e1, List.map_map, List.map_map]
    exact List.map_congr_left fun i _ => (midT_spec hEb qB i).2.2.1
  constructor
  · have : 0 ∈ onShellBins 4 qB (-2) [midT qB (-2) 0] :=
      (mem_onShellBins _ _ _ _ _).2 ⟨by norm_num, _, List.mem_singleton.2 rfl, Or.inl ⟨by norm_num, le_refl _, (midT_strict gridB hEb 0 1 (by norm_num) (by norm_num)).le⟩⟩
    rw [hE]
    intro hnil
    rw [List.map_eq_nil_iff] at hnil
    rw [hnil] at this
    exact absurd this List.not_mem_nil
  · intro E hm
    rw [hE, List.mem_map] at hm
    obtain ⟨i, hi, rfl⟩ := hm
    obtain ⟨hi4, T, hT, hor⟩ := (mem_onShellBins _ _ _ _ _).1 hi
    rw [List.mem_singleton.1 hT] at hor
    have hi2 : i < 2 := by
      by_contra hx
      have hi2 : 2 ≤ i := by omega
      rcases hor with ⟨-, a, -⟩ | ⟨-, a, -⟩
      · have := midT_strict gridB hEb 0 i (by omega) hi4
        linarith
      · have := midT_strict gridB hEb 0 (i - 1) (by omega) (by omega)
        linarith
    rw [midE_eq]
    have hnd : ∀ Eb (k : Nat), ndEnergy Eb (qB k) = 10000 * (k : ℝ) ^ 2 / (2 * ndReducedMass Eb) := by
      intro Eb k; unfold ndEnergy qB; congr 1; ring
    rw [hnd, hnd, hnd]
    have c1 : (626 : ℝ) < ndReducedMass (-2) ∧ ndReducedMass (-2) < 627 := by unfold ndReducedMass; constructor <;> norm_num
    have c2 : ndReducedMass 0 < 627 := by unfold ndReducedMass; norm_num
    have c3 : 0 < ndReducedMass 0 := by unfold ndReducedMass; norm_num
    obtain ⟨c1, c1'⟩ := c1
    have k1 : 7.9 < 10000 / (2 * ndReducedMass (-2)) := by rw [lt_div_iff₀ (by linarith)]; linarith
    have k2 : 10000 / (2 * ndReducedMass (-2)) < 8 := by rw [div_lt_iff₀ (by linarith)]; linarith
    have k3 : 7.9 < 10000 / (2 * ndReducedMass 0) := by rw [lt_div_iff₀ (by linarith)]; linarith
    have hs : ∀ (k : Nat) (m : ℝ), 10000 * (k : ℝ) ^ 2 / m = (k : ℝ) ^ 2 * (10000 / m) := by intro k m; ring
    rw [hs, hs, hs]
    interval_cases i <;> push_cast <;> constructor <;> linarith

/-- The deuteron's energy in every run of the example. -/
theorem energyB {w : PWSpace} (hw : constructPW par = some w) {env : RunEnv} (hd : LapackContract env.diag) {P123 : List (Entry ℝ)} {s : RunSetup} {U UBU : Nat → Option ℂ}
    (hrun : RunChannel inputB env w 0 P123 s U UBU) : s.swp.Eb = -2 := by
  obtain ⟨ents, hsort, hset, -⟩ := hrun
  obtain ⟨M, bu, Gs, CT, VC, hM, hsw, hos, -⟩ := runSetup_ok hset
  obtain ⟨M', hM', hread⟩ := potArrays_read (p := par) rfl par_valid hw (g := grid) (Or.inr rfl) pot env.junkV env.initV
  have : M = M' := by
    have h2 : some M = some M' := hM.symm.trans hM'
    exact Option.some.inj h2
  subst this
  have hh : HoldsPotential par grid pot w.states (fun b i => M (b, i)) := hread
  obtain ⟨st, h1, h2⟩ := swp_runs hw hh hd env.garbage env.C0
  have := Except.ok.inj (hsw.symm.trans h1)
  rw [this, h2]

/-- Every run of the example is above the breakup threshold, records cells and does not stop by the count. -/
theorem countedB {w : PWSpace} (hw : constructPW par = some w) {env : RunEnv} (HB : RunBase inputB env w 0) (hpa : env.pade.pa (-1) = some 0) (hpb : env.pade.paBU (-1) = some 0)
    {P123 : List (Entry ℝ)} (hsrc : P123Source true gsl inputB.grid quadB (w.block 0) P123) {s : RunSetup} {U UBU : Nat → Option ℂ} (hrun : RunChannel inputB env w 0 P123 s U UBU) :
    (∃ v off, findBreakup par 3 4 qB s.swp.e s.swp.Eb (w.block 0) s.os.Ecom = .ok (v, off) ∧ v ≠ []) ∧
    s.os.Ecom ≠ [] ∧ (∀ E ∈ s.os.Ecom, 0 ≤ E + s.swp.Eb) ∧ ∀ sf, padeSolve s.cfg env.sched env.pade = some sf → sf.numConv ≠ s.cfg.numEL := by
  obtain ⟨n1, n2⟩ := block_size hw
  have hch := (block_channel par_valid hw (show 0 < w.nChn by omega)).1
  obtain ⟨H, hop⟩ := run_of_source HB hsrc
  have hE := energyB hw HB.lapack hrun
  have hEb : -(Mn + Mp) < s.swp.Eb := by rw [hE]; norm_num [Mn, Mp]
  obtain ⟨ents, hsort, hset, -⟩ := id hrun
  obtain ⟨M, bu, Gs, CT, VC, hM, hsw, hos, -⟩ := runSetup_ok hset
  obtain ⟨v, off, hfb, -⟩ := breakup_cfg (x := inputB) rfl hset
  rw [hE] at hos
  obtain ⟨hne, hen⟩ := energiesB hos
  have hdm : deuteronState ∈ w.block 0 := (hch.2 _).2 ⟨deuteron_allowed, rfl, rfl⟩
  obtain ⟨a0, ha0⟩ := List.get_of_mem hdm
  have hE0 : 0 < s.os.Ecom.length := List.length_pos_iff.2 hne
  obtain ⟨a1, iq, hiq, ip, hip, b0, hb1, hb2, hv0⟩ : ∃ a1 : Fin (w.block 0).length, ∃ iq : Nat, ∃ _ : iq < 4, ∃ ip : Nat, ∃ _ : ip < 3, ∃ b0 : Nat, off.getD 0 0 ≤ b0 ∧ b0 < off.getD (0 + 1) 0 ∧
      v[b0]? = some ((a1.val : Int), (iq : Int), (ip : Int)) := by
    obtain ⟨-, -, -, hoff⟩ := C40_offsets _ _ _ _ _ _ _ _ _ _ hfb
    obtain ⟨lo, hi, d1, d2, d3, d4⟩ := hoff 0 hE0
    obtain ⟨r1, r2, r3⟩ := (C40_recorded_cells _ _ _ _ _ _ _ _ _ d4).2 (by rw [hE]; exact (hen _ (List.getElem_mem hE0)).1)
    obtain ⟨t, ht⟩ := List.exists_mem_of_ne_nil _ r1
    obtain ⟨a, ha, iq, hiq, ip, hip, -, -, -, hit⟩ := r2 t ht
    obtain ⟨b, b1, b2, b3⟩ := (slice_mem d1 d2 _).1 (r3 a ha iq hiq ip hip hit)
    exact ⟨⟨a, ha⟩, iq, hiq, ip, hip, b, b1, b2, b3⟩
  have hvne : v ≠ [] := by rintro rfl; simp at hv0
  refine ⟨⟨v, off, hfb, hvne⟩, hne, fun E hm => by rw [hE]; exact (hen E hm).1, ?_⟩
  intro sf hsf
  obtain ⟨deut, qidx, hdl, hin, hl1, hl2, -⟩ := run_setup H hsort hset hEb
  have hNp : 0 < inputB.g.Np := by show 0 < 3; norm_num
  have S := hin.setup (p := par) rfl hch hNp HB.size.1 HB.size.2
  have hK : kernelMatrix par (w.block 0) inputB.Nq inputB.g.Np s.V s.swp.C P123 = 0 := by
    have h0 : sparseMatrix (w.block 0).length inputB.Nq inputB.g.Np P123 = 0 := hop.trans (operatorB_zero _)
    unfold kernelMatrix
    rw [h0, Matrix.mul_zero, Matrix.zero_mul, smul_zero]
  rw [hK] at S
  rw [padeSolve_eq S env.pade] at hsf
  rw [← Option.some.inj hsf]
  obtain ⟨v', off', hfb', -, c1, c2, c3, c4⟩ := breakup_cfg (x := inputB) rfl hset
  have hvo : v' = v ∧ off' = off := by
    have h := hfb'.symm.trans hfb
    have := Except.ok.inj h
    exact ⟨congrArg Prod.fst this, congrArg Prod.snd this⟩
  obtain ⟨rfl, rfl⟩ := hvo
  have hda : a0 ∈ deut := (hdl.2 a0).2 (by rw [ha0]; exact ⟨rfl, rfl, rfl⟩)
  have hndp : 0 < deut.length := List.length_pos_of_mem hda
  have hnqp : 0 < qidx.length := by rw [← hl2]; exact hE0
  refine zero_count S env.pade hpa hpb ?_ ?_ ?_
  · obtain ⟨e, he, -⟩ := el_mem S ⟨0, hndp⟩ ⟨0, hndp⟩ ⟨0, hnqp⟩
    exact List.ne_nil_of_mem he
  · obtain ⟨e, he, -⟩ := bu_mem S ⟨0, hndp⟩ ⟨0, hnqp⟩ b0 (a1, ⟨iq, hiq⟩, ⟨ip, hip⟩) ⟨c1, by rw [c3]; exact hb1, by rw [c3]; exact hb2, by
      rw [c4, List.getD_eq_getElem?_getD, hv0]; rfl⟩
    exact List.ne_nil_of_mem he
  · intro e he
    obtain ⟨-, q, hq, dr, hdr, b, hbl, hbu, rfl⟩ := (mem_buElems _ e).1 he
    have hq' : q < qidx.length := by rw [← S.nq_eq]; exact hq
    have hbN : b < v'.length := by
      have hmono : ∀ k, q + 1 + k ≤ s.cfg.nq → s.cfg.buStart (q + 1) ≤ s.cfg.buStart (q + 1 + k) := by
        intro k
        induction k with
        | zero => intro _; exact le_rfl
        | succ k ih => intro hk; exact (ih (by omega)).trans (S.buMono c1 (q + 1 + k) (by omega))
      have hm := hmono (s.cfg.nq - (q + 1)) (by omega)
      rw [show q + 1 + (s.cfg.nq - (q + 1)) = s.cfg.nq by omega] at hm
      have hM := S.buMax c1
      rw [c2] at hM
      omega
    rw [c3] at hbl
    rw [c3] at hbu
    have hqE : q < s.os.Ecom.length := by rw [hl2]; exact hq'
    obtain ⟨-, -, -, hoff⟩ := C40_offsets _ _ _ _ _ _ _ _ _ _ hfb
    obtain ⟨lo, hi, d1, d2, d3, d4⟩ := hoff q hqE
    rw [List.getD_eq_getElem?_getD, d1] at hbl
    rw [List.getD_eq_getElem?_getD, d2] at hbu
    simp only [Option.getD_some] at hbl hbu
    obtain ⟨g1, g2⟩ := hen _ (List.getElem_mem hqE)
    obtain ⟨-, hrec⟩ := C40_recorded_cells _ _ _ _ _ _ _ _ _ d4
    obtain ⟨-, hrec, -⟩ := hrec (by rw [hE]; exact g1)
    have hbv : b < v'.length := hbN
    have hmemb : v'[b] ∈ (v'.drop lo).take (hi - lo) := by
      rw [List.mem_iff_getElem]
      refine ⟨b - lo, by rw [List.length_take, List.length_drop]; omega, ?_⟩
      rw [List.getElem_take, List.getElem_drop]
      congr 1; omega
    obtain ⟨a, ha, iq', hiq', ip', hip', t1, t2, t3, bb, nn, -, hc⟩ := hrec _ hmemb
    have hiq2 : iq' < 2 := by
      by_contra hx
      have hx : 2 ≤ iq' := by omega
      have : ndEnergy 0 (qB 2) ≤ ndEnergy 0 (qB iq') := by
        unfold ndEnergy
        apply div_le_div_of_nonneg_right _ (by unfold ndReducedMass; norm_num)
        have : (2 : ℝ) ≤ iq' := by exact_mod_cast hx
        unfold qB; push_cast; nlinarith
      have h3 : ndEnergy 0 (qB iq') ≤ s.os.Ecom[q] := by
        have := hc.1
        have := hc.2.2.1
        show ndEnergy 0 (inputB.q iq') ≤ _
        linarith
      linarith
    have hip3 : ip' < 3 := hip'
    have hlen : a < 10 := by rw [← n2]; exact ha
    have hst : s.cfg.buState b = (v'[b].1.toNat, v'[b].2.1.toNat, v'[b].2.2.toNat) := by
      rw [c4, List.getD_eq_getElem?_getD, List.getElem?_eq_getElem hbv]; rfl
    generalize v'[b] = t at t1 t2 t3 hst
    obtain ⟨t1', t2', t3'⟩ := t
    dsimp only at t1 t2 t3 hst
    rw [abs_le] at t2 t3
    have hcol : t1'.toNat * 12 + t2'.toNat * 3 + t3'.toNat < (w.block 0).length * inputB.Nq * inputB.g.Np := by
      rw [n2]
      show _ < 10 * 4 * 3
      omega
    obtain ⟨y, hy⟩ := (flatEquiv (w.block 0).length inputB.Nq inputB.g.Np).surjective ⟨_, hcol⟩
    refine ⟨⟨dr, by rw [← S.nd_eq]; exact hdr⟩, ⟨q, hq'⟩, y, rfl, ?_⟩
    have hy' : flat y = t1'.toNat * 12 + t2'.toNat * 3 + t3'.toNat := congrArg Fin.val hy
    rw [hy', hst, S.hq, S.hp]
    show t1'.toNat * 4 * 3 + t2'.toNat * 3 + t3'.toNat = _
    ring

/-- A complete run of the example. -/
theorem runB {w : PWSpace} (hw : constructPW par = some w) : ∃ (env : RunEnv) (P123 : List (Entry ℝ)) (s : RunSetup) (U UBU : Nat → Option ℂ), RunBase inputB env w 0 ∧
    env.pade.pa (-1) = some 0 ∧ env.pade.paBU (-1) = some 0 ∧ P123Source true gsl inputB.grid quadB (w.block 0) P123 ∧ RunChannel inputB env w 0 P123 s U UBU := by
  obtain ⟨n1, n2⟩ := block_size hw
  have hch := (block_channel par_valid hw (show 0 < w.nChn by omega)).1
  obtain ⟨P123, f, hf⟩ := fill_runsB (w.block 0)
  have hst := C87_computed (fill_hypsB (w.block 0)) hch hf
  obtain ⟨diag, hd⟩ := exists_lapack
  let env : RunEnv := { diag := diag, junkV := fun _ _ _ _ => 7, initV := fun _ => 7, garbage := fun _ => 7, C0 := fun _ _ => 7, junkCT := fun _ _ _ => 7
                        junkVC := fun _ _ _ => 7, G0 := fun _ => 7, junkBU := fun _ => 7, sched := List.range 10
                        pade := ⟨fun _ => some 0, fun _ => some 0, fun _ => 7, fun _ => 7⟩ }
  have HB : RunBase inputB env w 0 :=
    { basis := hw, tensor := rfl, valid := par_valid, mid := Or.inr rfl, hermitian := pot_hermitian
      pgrid := fun i _ => by
        show ((i : Nat) : ℝ) < ((i + 1 : Nat) : ℝ)
        push_cast; linarith
      bins := le_refl 3
      qgrid := gridB
      lapack := hd, channel := by omega
      sched := by rw [n2]
      size := by rw [n2]; simp [inputB, grid]
      simple := fun Eb C lam hb => nondegenerate hch (show 0 < 4 by norm_num) hb }
  have hsrc : P123Source true gsl inputB.grid quadB (w.block 0) P123 := by
    unfold P123Source; rw [if_pos rfl]; exact ⟨_, f, fill_hypsB _, hf⟩
  obtain ⟨H, hop⟩ := run_of_source HB hsrc
  have hEb2 : ∀ M, potArrays inputB.p inputB.g inputB.pot env.junkV env.initV w.states = some M →
      ∃ st, makeSwpStates inputB.p inputB.g.Np inputB.g.pWP (fun b i => M (b, i)) env.diag env.garbage env.C0 0 w.states = .ok st ∧ st.Eb = -2 := by
    intro M hM
    obtain ⟨M', hM', hread⟩ := potArrays_read (p := par) rfl par_valid hw (g := grid) (Or.inr rfl) pot env.junkV env.initV
    have : M = M' := by
      have h2 : some M = some M' := hM.symm.trans hM'
      exact Option.some.inj h2
    subst this
    have hh : HoldsPotential par grid pot w.states (fun b i => M (b, i)) := hread
    exact swp_runs hw hh hd _ _
  obtain ⟨s, U, UBU, hrun, hEb, v, off, hfb, hcells⟩ := C116_completes H rfl rfl (by
    intro i hi
    show 1.0011 * qB i ≤ qB (i + 1)
    have hi4 : i < 4 := hi
    unfold qB
    interval_cases i <;> norm_num) (fun M hM => by
      obtain ⟨st, h1, h2⟩ := hEb2 M hM
      exact ⟨st, h1, by rw [h2]; norm_num, by rw [h2]; norm_num⟩)
  exact ⟨env, P123, s, U, UBU, HB, rfl, rfl, hsrc, hrun⟩

/-- **Non-vacuity of C116.** A complete run with breakup: all its energies are above the threshold, breakup cells are recorded, and the loop does not stop by the count. -/
example : ∃ (env : RunEnv) (w : PWSpace) (P123 : List (Entry ℝ)) (s : RunSetup) (U UBU : Nat → Option ℂ) (v : List (Int × Int × Int)) (off : List Nat),
    RunBase inputB env w 0 ∧ P123Source true gsl inputB.grid quadB (w.block 0) P123 ∧ RunChannel inputB env w 0 P123 s U UBU ∧ -(Mn + Mp) < s.swp.Eb ∧
    findBreakup par 3 4 qB s.swp.e s.swp.Eb (w.block 0) s.os.Ecom = .ok (v, off) ∧ v ≠ [] ∧
    (∀ E ∈ s.os.Ecom, 0 ≤ E + s.swp.Eb) ∧ ∀ sf, padeSolve s.cfg env.sched env.pade = some sf → sf.numConv ≠ s.cfg.numEL := by
  obtain ⟨w, hw, hmem⟩ := C01_basis_exact par par_valid
  obtain ⟨env, P123, s, U, UBU, HB, h1, h2, hsrc, hrun⟩ := runB hw
  obtain ⟨⟨v, off, hfb, hv⟩, -, h3, h4⟩ := countedB hw HB h1 h2 hsrc hrun
  exact ⟨env, w, P123, s, U, UBU, v, off, HB, hsrc, hrun, by rw [energyB hw HB.lapack hrun]; norm_num [Mn, Mp], hfb, hv, h3, h4⟩

end Example
end TicTac
end
