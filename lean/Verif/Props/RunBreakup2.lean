import Verif.Props.RunBreakup
/-! C116: a run with breakup completes. -/
noncomputable section
namespace TicTac
open Spec Classical

/-- Kinetic energies with the deuteron and with a free pair differ by less than 0.06 %. -/
theorem nd_ratio {Eb : ℝ} (h1 : -3 ≤ Eb) (h2 : Eb ≤ 0) (q : ℝ) : ndEnergy 0 q ≤ ndEnergy Eb q ∧ ndEnergy Eb q ≤ 1.0006 * ndEnergy 0 q := by
  have m0 : (0:ℝ) < ndReducedMass 0 := by unfold ndReducedMass; norm_num
  have mb : (0:ℝ) < ndReducedMass Eb := by
    unfold ndReducedMass
    exact div_pos (mul_pos (by norm_num) (by linarith)) (by linarith)
  have k1 : ndReducedMass Eb ≤ ndReducedMass 0 := by
    unfold ndReducedMass
    rw [div_le_div_iff₀ (by linarith) (by norm_num)]
    nlinarith
  have k2 : ndReducedMass 0 ≤ 1.0006 * ndReducedMass Eb := by
    unfold ndReducedMass
    rw [← mul_div_assoc, div_le_div_iff₀ (by norm_num) (by linarith)]
    nlinarith
  have hq := sq_nonneg q
  unfold ndEnergy
  constructor
  · exact div_le_div_of_nonneg_left hq (by linarith) (by linarith)
  · rw [← mul_div_assoc, div_le_div_iff₀ (by linarith) (by linarith)]
    nlinarith

theorem optMapM_total {α β : Type} {f : α → Option β} {l : List α} (h : ∀ a ∈ l, ∃ b, f a = some b) : ∃ r, l.mapM f = some r := by
  induction l with
  | nil => exact ⟨[], rfl⟩
  | cons a l ih =>
    obtain ⟨b, hb⟩ := h a (List.mem_cons_self ..)
    obtain ⟨r, hr⟩ := ih fun a ha => h a (List.mem_cons_of_mem _ ha)
    exact ⟨b :: r, by rw [List.mapM_cons, hb, hr]; rfl⟩

/-- The search for cells succeeds as soon as one cell contains the energy. -/
theorem breakup_ok {p : PWParams} {states : List PWState} {Np Nq : Nat} {q : Nat → ℝ} {e : Bool → Int → ℝ} {Eb E : ℝ} (hptr : ∀ s ∈ states, ∃ pt, ePtr p Np s = some pt)
    {a : Fin states.length} {i ip : Nat} (hi : i < Nq) (hip : ip < Np) (hh : StateCellHit p Np q e E (states.get a) i ip) : ∃ l, breakupEnergy p Np Nq q e Eb states E = .ok l := by
  obtain ⟨b, n, hp, hc⟩ := hh
  by_cases h0 : E + Eb < 0
  · exact ⟨[], by unfold breakupEnergy; rw [if_pos h0]⟩
  unfold breakupEnergy
  rw [if_neg h0]
  split
  · rename_i hnone
    exfalso
    have : ∃ ls, (states.zipIdx.mapM fun sa => (ePtr p Np sa.1).map (breakupState Np Nq q e E sa.2)) = some ls := by
      apply optMapM_total
      intro sa hsa
      obtain ⟨pt, hpt⟩ := hptr sa.1 (List.fst_mem_of_mem_zipIdx hsa)
      exact ⟨_, by rw [hpt]; rfl⟩
    obtain ⟨ls, hls⟩ := this
    rw [hnone] at hls; cases hls
  · rename_i ls hls
    by_cases hempty : ls.flatten.isEmpty
    · exfalso
      obtain ⟨ls1, h3, h4⟩ := (optMapM_mem hls).2 (states[a.val], a.val) (by rw [List.mem_zipIdx_iff_getElem?]; simp)
      have hp' : ePtr p Np states[a.val] = some (b, n) := hp
      simp only [hp', Option.map_some, Option.some.injEq] at h4
      have hin : ((a : Int), (i : Int), (ip : Int)) ∈ ls1 := by
        rw [← h4]
        refine mem_breakupState.2 ⟨i, hi, ip, hip, ?_⟩
        unfold CellHit at hc
        unfold breakupCell
        dsimp only
        rw [if_pos hc]
        exact List.mem_cons_self ..
      have hfl : ((a : Int), (i : Int), (ip : Int)) ∈ ls.flatten := List.mem_flatten.2 ⟨ls1, h3, hin⟩
      rw [List.isEmpty_iff.1 hempty] at hfl
      cases hfl
    · rw [if_neg hempty]; exact ⟨_, rfl⟩

/-- At every on-shell energy above threshold every partial wave has a recorded cell in the on-shell bin, so the search for cells succeeds. -/
theorem breakup_found {p : PWParams} (ht : p.tensor = true) {J P : Int} {states : List PWState} (hch : IsChannel p J P states) (hne : states ≠ []) {Np Nq : Nat} (hN : 3 ≤ Np)
    {q : Nat → ℝ} (hg : IsGrid Nq q) (hw : ∀ i < Nq, 1.0011 * q i ≤ q (i + 1)) {e : Bool → Int → ℝ} {Eb : ℝ} (h1 : -3 ≤ Eb) (h2 : Eb ≤ 0) {lam : Fin states.length → Nat → ℝ}
    (hb : EnergyBins states Np Eb lam (fun a i => edgeOf p Np e (states.get a) i)) {E : ℝ} {i : Nat} (hi : i < Nq) (hE : E = (ndEnergy Eb (q i) + ndEnergy Eb (q (i + 1))) / 2) :
    ∃ l, breakupEnergy p Np Nq q e Eb states E = .ok l ∧ (0 ≤ E + Eb → ∀ a : Fin states.length, ∃ ip < Np, ((a : Int), (i : Int), (ip : Int)) ∈ l) := by
  by_cases h0 : E + Eb < 0
  · exact ⟨[], by unfold breakupEnergy; rw [if_pos h0], fun h => absurd h0 (not_lt.2 h)⟩
  have hptr : ∀ s ∈ states, ∃ pt, ePtr p Np s = some pt := by
    intro s hs
    obtain ⟨b, n, -, h, -⟩ := ePtr_eq ht Np (IsChannel.allowed hch hs)
    exact ⟨_, h⟩
  -- the hit
  have hhit : ∀ a : Fin states.length, ∃ ip < Np, StateCellHit p Np q e E (states.get a) i ip := by
    intro a
    obtain ⟨b, n, hs, hp, hsec⟩ := ePtr_eq ht Np (IsChannel.allowed hch (List.get_mem states a))
    have hedge : ∀ k : Nat, edgeOf p Np e (states.get a) k = e b ((n * (eLen Np b : Nat) + if SecondMember (states.get a) then ((Np + 1 : Nat) : Int) else 0) + k) := by
      intro k
      unfold edgeOf
      rw [hs]
      dsimp only
      congr 1
      split <;> push_cast <;> ring
    obtain ⟨⟨hinc, -⟩, hd, hnd⟩ := hb a
    obtain ⟨ip, hip, he0⟩ : ∃ ip < Np, edgeOf p Np e (states.get a) ip = 0 := by
      by_cases hds : IsDeuteronS (states.get a)
      · exact ⟨1, by omega, (hd hds).2⟩
      · exact ⟨0, by omega, hnd hds⟩
    have he1 : edgeOf p Np e (states.get a) ip < edgeOf p Np e (states.get a) (ip + 1) := hinc ip hip
    rw [he0] at he1
    rw [hedge] at he0
    rw [hedge, show ((ip + 1 : Nat) : Int) = ip + 1 by push_cast; rfl, ← add_assoc] at he1
    refine ⟨ip, hip, b, _, hp, ?_, ?_, he0.ge, he1.le⟩
    all_goals
      have hq0 := grid_nonneg hg i hi.le
      have hq1 := hg.2 i hi
      have hwi := hw i hi
      have m0 : (0:ℝ) < 2 * ndReducedMass 0 := by unfold ndReducedMass; norm_num
      obtain ⟨r1, r2⟩ := nd_ratio h1 h2 (q i)
      obtain ⟨r3, r4⟩ := nd_ratio h1 h2 (q (i + 1))
    · have : ndEnergy 0 (q i) ≤ ndEnergy 0 (q (i + 1)) := (ndEnergy_strict 0 _ _ (by norm_num [Mn, Mp]) hq0 hq1).le
      rw [he0, hE]; linarith
    · have : 1.002 * ndEnergy 0 (q i) ≤ ndEnergy 0 (q (i + 1)) := by
        unfold ndEnergy
        rw [← mul_div_assoc]
        apply div_le_div_of_nonneg_right _ m0.le
        nlinarith
      have h00 : 0 ≤ ndEnergy 0 (q i) := by unfold ndEnergy; positivity
      rw [hE]; linarith
  obtain ⟨s0, hs0⟩ := List.exists_mem_of_ne_nil _ hne
  obtain ⟨a0, ha0⟩ := List.get_of_mem hs0
  obtain ⟨ip0, hip0, hh0⟩ := hhit a0
  have hok := breakup_ok hptr hi hip0 hh0 (Eb := Eb)
  obtain ⟨l, hl⟩ := hok
  refine ⟨l, hl, fun hpos a => ?_⟩
  obtain ⟨ip, hip, hh⟩ := hhit a
  exact ⟨ip, hip, ((C40_recorded_cells p Np Nq q e Eb E states l hl).2 hpos).2.2 a a.2 i hi ip hip hh⟩

/-- The search for breakup cells at all on-shell energies. -/
theorem findBreakup_total {p : PWParams} {Np Nq : Nat} {q : Nat → ℝ} {e : Bool → Int → ℝ} {Eb : ℝ} {states : List PWState} {Ecom : List ℝ}
    (h : ∀ E ∈ Ecom, ∃ l, breakupEnergy p Np Nq q e Eb states E = .ok l) : ∃ b, findBreakup p Np Nq q e Eb states Ecom = .ok b := by
  unfold findBreakup
  generalize (([], [0]) : List (Int × Int × Int) × List Nat) = s0
  induction Ecom generalizing s0 with
  | nil => exact ⟨_, rfl⟩
  | cons E l ih =>
    obtain ⟨r, hr⟩ := h E (List.mem_cons_self ..)
    rw [List.foldlM_cons]
    simp only [bind, Except.bind, hr, pure, Except.pure]
    exact ih (fun E hE => h E (List.mem_cons_of_mem _ hE)) _

/-- **C116, the run completes.** If the two-nucleon spectra pass the check for bound states (C37), the deuteron energy is realistic and neighbouring q boundaries differ by 0.11 %, a run
with breakup completes: the search for breakup cells does not stop it, and above threshold every partial wave has an entry in the on-shell bin. -/
theorem C116_completes {x : RunInput} {env : RunEnv} {w : PWSpace} {chn : Nat} {P123 : List (Entry ℝ)} (H : RunHyps x env w chn P123)
    (hd : x.dense = false) (hb : x.breakup = true) (hq : ∀ i < x.Nq, 1.0011 * x.q i ≤ x.q (i + 1))
    (hst : ∀ M, potArrays x.p x.g x.pot env.junkV env.initV w.states = some M →
      ∃ st, makeSwpStates x.p x.g.Np x.g.pWP (fun b i => M (b, i)) env.diag env.garbage env.C0 0 w.states = .ok st ∧ -3 ≤ st.Eb ∧ st.Eb ≤ 0) :
    ∃ s U UBU, RunChannel x env w chn P123 s U UBU ∧ -(Mn + Mp) < s.swp.Eb ∧ ∃ v off,
      findBreakup x.p x.g.Np x.Nq x.q s.swp.e s.swp.Eb (w.block chn) s.os.Ecom = .ok (v, off) ∧
      ∀ k (hk : k < s.os.Ecom.length), 0 ≤ s.os.Ecom[k] + s.swp.Eb → ∀ a : Fin (w.block chn).length, ∃ iq < x.Nq, ∃ ip < x.g.Np, ∃ b, off.getD k 0 ≤ b ∧ b < off.getD (k + 1) 0 ∧
        v[b]? = some ((a : Int), (iq : Int), (ip : Int)) ∧ s.os.Ecom[k] = (ndEnergy s.swp.Eb (x.q iq) + ndEnergy s.swp.Eb (x.q (iq + 1))) / 2 := by
  obtain ⟨ents, hsort⟩ := exists_isSortedBy (fun e : Entry ℝ => e.col * ((w.block chn).length * x.Nq * x.g.Np) + e.row) P123
  obtain ⟨M, hM, hread⟩ := potArrays_read H.tensor H.valid H.basis H.mid x.pot env.junkV env.initV
  have hhold : HoldsPotential x.p x.g x.pot w.states (fun b i => M (b, i)) := hread
  obtain ⟨st, hrun, e1, e2⟩ := hst M hM
  obtain ⟨os, hos, -⟩ := C39_indices x.Nq x.q H.qgrid hq st.Eb e1 e2 x.Tlab
  have hEb : -(Mn + Mp) < st.Eb := by norm_num [Mn, Mp]; linarith
  obtain ⟨hch, hsub⟩ := block_channel H.valid H.basis H.channel
  have hG : ∀ E : ℝ, ∃ G, orStop (resolventArray x.p x.g.Np x.Nq x.q st.e (E + st.Eb) (w.block chn) env.G0) = .ok G := by
    intro E
    obtain ⟨G, hG, _⟩ := resolventArray_eq x.p H.tensor x.g.Np x.Nq x.q st.e (E + st.Eb) (w.block chn) (fun s hs => IsChannel.allowed hch hs) env.G0
    exact ⟨G, by rw [hG]; rfl⟩
  choose Gf hGf using hG
  have hGs := mapM_ok_of (fun E => orStop (resolventArray x.p x.g.Np x.Nq x.q st.e (E + st.Eb) (w.block chn) env.G0)) Gf os.Ecom (fun E _ => hGf E)
  obtain ⟨⟨CT, hCT⟩, -⟩ := C43_tables_exist H.tensor hch x.g.Np (fun b i => M (b, i)) st.C env.junkCT
  obtain ⟨-, ⟨VC, hVC⟩⟩ := C43_tables_exist H.tensor hch x.g.Np (fun b i => M (b, i)) st.C env.junkVC
  have hne : w.block chn ≠ [] := by
    intro h0
    have := H.size.1
    rw [h0] at this
    simp at this
  have hbasis := basis_of_run H.tensor H.valid H.basis H.pgrid H.hermitian hhold H.lapack hrun hch hsub x.Nq
  have hnd := H.simple _ _ _ hbasis
  have hbins := bins_of_run H.tensor H.valid H.basis H.pgrid H.hermitian hhold H.lapack hrun hch hsub H.bins hnd
  obtain ⟨-, ⟨bins, -, ht1, ht2, hpt⟩, -⟩ := C39_on_shell_rows x.Nq x.q H.qgrid st.Eb hEb x.Tlab os hos
  have hEk : ∀ k (hk : k < os.Ecom.length), ∃ i < x.Nq, os.Ecom[k] = (ndEnergy st.Eb (x.q i) + ndEnergy st.Eb (x.q (i + 1))) / 2 := by
    intro k hk
    obtain ⟨p1, -, p3⟩ := hpt k (by omega) (by omega) hk
    exact ⟨_, p1, p3⟩
  obtain ⟨⟨v, off⟩, hfb⟩ : ∃ b, findBreakup x.p x.g.Np x.Nq x.q st.e st.Eb (w.block chn) os.Ecom = .ok b := by
    apply findBreakup_total
    intro E hE
    obtain ⟨k, hk, rfl⟩ := List.mem_iff_getElem.1 hE
    obtain ⟨i, hi, hEi⟩ := hEk k hk
    obtain ⟨l, hl, -⟩ := breakup_found H.tensor hch hne H.bins H.qgrid hq e1 e2 hbins hi hEi
    exact ⟨l, hl⟩
  have hset : ∃ s, runSetup x env w chn ents = .ok s ∧ s.swp = st ∧ s.os = os := by
    unfold runSetup
    simp only [bind, Except.bind, hM, orStop, hrun, hos, runBreakup, hb, if_true, hfb, pure, Except.pure, hGs, hCT, hVC]
    simp only [bind, Except.bind, orStop] at hGs
    rw [hGs]
    exact ⟨_, rfl, rfl, rfl⟩
  obtain ⟨s, hs, rfl, rfl⟩ := hset
  obtain ⟨deut, qidx, -, hin, -⟩ := run_setup H hsort hs hEb
  obtain ⟨sf, hsf, -⟩ := complete_or_none H.tensor hch (by have := H.bins; omega) hin H.size.1 H.size.2 env.pade
  refine ⟨s, padeU sf, padeUBU sf, ⟨ents, hsort, hs, ?_⟩, hEb, v, off, hfb, ?_⟩
  · unfold SolveFaddeev
    rw [if_neg (by simp [hd])]
    exact ⟨sf, hsf, rfl, rfl⟩
  · intro k hk h0 a
    obtain ⟨i, hi, hEi⟩ := hEk k hk
    obtain ⟨l, hl, hal⟩ := breakup_found H.tensor hch hne H.bins H.qgrid hq e1 e2 hbins hi hEi
    obtain ⟨ip, hip, hm⟩ := hal h0 a
    obtain ⟨-, -, -, hoff⟩ := C40_offsets _ _ _ _ _ _ _ _ _ _ hfb
    obtain ⟨lo, hi', d1, d2, d3, d4⟩ := hoff k hk
    rw [hl] at d4
    have d4 := Except.ok.inj d4
    rw [d4] at hm
    obtain ⟨j, hj, hjv⟩ := List.mem_iff_getElem.1 hm
    rw [List.length_take, List.length_drop] at hj
    refine ⟨i, hi, ip, hip, lo + j, ?_, ?_, ?_, hEi⟩
    · rw [List.getD_eq_getElem?_getD, d1]; simp
    · rw [List.getD_eq_getElem?_getD, d2]; simp; omega
    · rw [List.getElem_take, List.getElem_drop] at hjv
      rw [← hjv]
      exact List.getElem?_eq_getElem _

end TicTac
end
