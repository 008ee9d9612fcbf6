import Verif.Lemmas.Run3
import Verif.Props.PadeSolve3
/-! Lemmas for the whole run: the resolvent, and everything `runSetup` returns. -/
noncomputable section
namespace TicTac
open Spec
open Classical

theorem spectatorE_nd (Eb q : ℝ) : spectatorE Eb q = ndEnergy Eb q := spectatorE_eq Eb q

/-- Energies of the grid points are increasing. -/
theorem nd_lt {Nq : Nat} {q : Nat → ℝ} (hg : IsGrid Nq q) {Eb : ℝ} (hEb : -(Mn + Mp) < Eb) {i j : Nat} (hij : i < j) (hj : j ≤ Nq) :
    ndEnergy Eb (q i) < ndEnergy Eb (q j) := by
  rw [← spectatorE_nd, ← spectatorE_nd]
  refine spectatorE_strict Eb _ _ hEb (grid_nonneg hg i (by omega)) ?_
  induction j, hij using Nat.le_induction with
  | base => exact hg.2 i (by omega)
  | succ j hij ih => exact (ih (by omega)).trans (hg.2 j (by omega))

theorem midpoint_not_edge {Nq : Nat} {q : Nat → ℝ} (hg : IsGrid Nq q) {Eb : ℝ} (hEb : -(Mn + Mp) < Eb) {bin : Nat} (hbin : bin < Nq) {Ecom : ℝ}
    (hE : Ecom = (ndEnergy Eb (q bin) + ndEnergy Eb (q (bin + 1))) / 2) {j : Nat} (hj : j ≤ Nq) : Ecom ≠ ndEnergy Eb (q j) := by
  have h1 := nd_lt hg hEb (i := bin) (j := bin + 1) (by omega) (by omega)
  rcases Nat.lt_or_ge bin j with h | h
  · have : ndEnergy Eb (q (bin + 1)) ≤ ndEnergy Eb (q j) := by
      rcases Nat.eq_or_lt_of_le (show bin + 1 ≤ j from h) with e | e
      · rw [e]
      · exact (nd_lt hg hEb e hj).le
    intro he; linarith
  · have : ndEnergy Eb (q j) ≤ ndEnergy Eb (q bin) := by
      rcases Nat.eq_or_lt_of_le h with e | e
      · rw [e]
      · exact (nd_lt hg hEb e (by omega)).le
    intro he; linarith

/-- The resolvent array, for boundaries that are energy bins. -/
theorem resolvent_of_bins {p : PWParams} (ht : p.tensor = true) {J P : Int} {states : List PWState} (h : IsChannel p J P states) {Np Nq : Nat}
    {q : Nat → ℝ} (hg : IsGrid Nq q) {Eb Ecom : ℝ} (hEb : -(Mn + Mp) < Eb) {lam : Fin states.length → Nat → ℝ} {e : Bool → Int → ℝ}
    (hbins : EnergyBins states Np Eb lam (fun a i => edgeOf p Np e (states.get a) i)) (hneg : ∀ a, IsDeuteronS (states.get a) → 0 < Np → Eb < 0)
    {bin : Nat} (hbin : bin < Nq) (hE : Ecom = (ndEnergy Eb (q bin) + ndEnergy Eb (q (bin + 1))) / 2) {G0 G : Nat → ℂ}
    (hG : resolventArray p Np Nq q e (Ecom + Eb) states G0 = some G) :
    IsResolvent states Nq Np q Eb Ecom (fun a i => edgeOf p Np e (states.get a) i) (fun x => G (flat x)) := by
  obtain ⟨G', hG', hval⟩ := resolventArray_eq p ht Np Nq q e (Ecom + Eb) states (fun s hs => IsChannel.allowed h hs) G0
  rw [hG] at hG'; cases hG'
  intro x
  obtain ⟨b, n, hsl, hv⟩ := hval x.1 x.1.2 x.2.1 x.2.1.2 x.2.2 x.2.2.2
  have hed : ∀ i : Nat, edgeOf p Np e (states.get x.1) i = e b (n * (eLen Np b : Nat) + (if SecondMember (states.get x.1) then ((Np + 1 : Nat) : Int) else 0) + i) := by
    intro i
    unfold edgeOf
    rw [show slotOf p (states.get x.1) = some (b, n) from hsl]
    dsimp only
    congr 1
    split_ifs <;> push_cast <;> ring
  have hx : G (flat x) = resolventCell (Ecom + Eb) (edgeOf p Np e (states.get x.1) x.2.2) (edgeOf p Np e (states.get x.1) (x.2.2 + 1))
      (q x.2.1) (q (x.2.1 + 1)) := by
    rw [hed, hed]
    refine hv.trans ?_
    congr 2
    push_cast
    exact add_assoc _ _ _
  dsimp only
  rw [hx]
  have hNp : 0 < Np := lt_of_le_of_lt (Nat.zero_le _) x.2.2.2
  obtain ⟨⟨henc1, _⟩, hd0, hn0⟩ := hbins x.1
  dsimp only at henc1 hd0 hn0
  have hmono : ∀ j ≤ Np, ∀ i ≤ j, edgeOf p Np e (states.get x.1) i ≤ edgeOf p Np e (states.get x.1) j := by
    intro j
    induction j with
    | zero => intro _ i hi; rw [Nat.le_zero.1 hi]
    | succ j ih =>
      intro hj i hi
      rcases Nat.eq_or_lt_of_le hi with e | e
      · rw [e]
      · exact (ih (by omega) i (by omega)).trans (henc1 j (by omega)).le
  constructor
  · rintro ⟨hS, h0⟩
    have hEbn := hneg _ hS hNp
    unfold resolventCell
    rw [h0, (hd0 hS).1]
    dsimp only
    rw [if_pos hEbn, if_pos hEbn, if_pos hEbn, add_zero]
    have := C41_resolvent_bc (Ecom + Eb) Eb (q x.2.1) (q (x.2.1 + 1)) ?_ ?_ ?_
    · rwa [add_sub_cancel_right] at this
    · exact (nd_lt hg hEb (by omega) (by have := x.2.1.2; omega)).ne'
    · rw [add_sub_cancel_right]; exact midpoint_not_edge hg hEb hbin hE (by have := x.2.1.2; omega)
    · rw [add_sub_cancel_right]; exact midpoint_not_edge hg hEb hbin hE (by have := x.2.1.2; omega)
  · intro hno hcorner
    have hpos : ¬ edgeOf p Np e (states.get x.1) x.2.2 < 0 := by
      push_neg
      by_cases hS : IsDeuteronS (states.get x.1)
      · have h1 : 1 ≤ (x.2.2 : Nat) := by
          by_contra hx0; exact hno ⟨hS, by omega⟩
        rw [← (hd0 hS).2]
        exact hmono _ x.2.2.2.le _ h1
      · rw [← hn0 hS]
        exact hmono _ x.2.2.2.le _ (Nat.zero_le _)
    unfold resolventCell
    dsimp only
    rw [if_neg hpos, if_neg hpos, if_neg hpos, zero_add]
    have hM : -(Mn + Mp) < (0 : ℝ) := by norm_num [Mn, Mp]
    have := C42_resolvent_cc (Ecom + Eb) 0 (q x.2.1) (q (x.2.1 + 1)) (edgeOf p Np e (states.get x.1) x.2.2)
      (edgeOf p Np e (states.get x.1) (x.2.2 + 1)) (henc1 _ x.2.2.2).ne ?_ ?_ ?_ ?_ ?_
    · exact this
    · exact (nd_lt hg hM (by omega) (by have := x.2.1.2; omega)).ne
    all_goals
      exact hcorner _ (by simp) _ (by simp)

theorem orStop_ok {α : Type} {o : Option α} {a : α} (h : orStop o = .ok a) : o = some a := by
  cases o with
  | none => exact absurd h (by simp [orStop])
  | some b => simp [orStop] at h; rw [h]

/-- What a successful `runSetup` has computed. -/
theorem runSetup_ok {x : RunInput} {env : RunEnv} {w : PWSpace} {chn : Nat} {ents : List (Entry ℝ)} {s : RunSetup}
    (h : runSetup x env w chn ents = .ok s) :
    ∃ M bu Gs CT VC, potArrays x.p x.g x.pot env.junkV env.initV w.states = some M ∧
      makeSwpStates x.p x.g.Np x.g.pWP (fun b i => M (b, i)) env.diag env.garbage env.C0 0 w.states = .ok s.swp ∧
      findOnShell x.Nq x.q s.swp.Eb x.Tlab = .ok s.os ∧ runBreakup x env s.swp s.os (w.block chn) = .ok bu ∧
      s.os.Ecom.mapM (fun E => orStop (resolventArray x.p x.g.Np x.Nq x.q s.swp.e (E + s.swp.Eb) (w.block chn) env.G0)) = .ok Gs ∧
      kernelTab x.p x.g.Np (channelsOnly x.p (ctSub x.g.Np s.swp.C) env.junkCT) (w.block chn) = some CT ∧
      kernelTab x.p x.g.Np (channelsOnly x.p (vcSub x.g.Np (fun b i => M (b, i)) s.swp.C) env.junkVC) (w.block chn) = some VC ∧
      s.states = w.block chn ∧ s.V = (fun b i => M (b, i)) ∧
      s.cfg = { Nalpha := (w.block chn).length, Nq := x.Nq, Np := x.g.Np, CT := CT, VC := VC, ents := ents, ptr := csPtr (ents.map (·.col))
                G := gArray ((w.block chn).length * x.Nq * x.g.Np) Gs, qidx := s.os.qIdx, deut := (findDeuteronChannels w).getD chn []
                breakup := x.breakup, buStart := bu.1, nBU := bu.2.1, buState := bu.2.2 } := by
  unfold runSetup at h
  simp only [bind, Except.bind] at h
  split at h
  · cases h
  rename_i M hM
  split at h
  · cases h
  rename_i st hst
  split at h
  · cases h
  rename_i os hos
  split at h
  · cases h
  rename_i bu hbu
  split at h
  · cases h
  rename_i Gs hGs
  split at h
  · cases h
  rename_i CT hCT
  split at h
  · cases h
  rename_i VC hVC
  simp only [pure, Except.pure, Except.ok.injEq] at h
  subst h
  exact ⟨M, bu, Gs, CT, VC, orStop_ok hM, hst, hos, hbu, hGs, orStop_ok hCT, orStop_ok hVC, rfl, rfl, rfl⟩

/-- The block of channel `chn` is a channel of the basis. -/
theorem block_channel {p : PWParams} (hv : ValidTruncation p) {w : PWSpace} (hw : constructPW p = some w) {chn : Nat} (hc : chn < w.nChn) :
    IsChannel p (2 * ((chn / 2 : Nat) : Int) + 1) (if chn % 2 = 0 then 1 else -1) (w.block chn) ∧ ∀ s ∈ w.block chn, s ∈ w.states := by
  obtain ⟨_, hlen, _⟩ := C03_channels_contiguous p hv w hw
  have h1 := List.getElem?_eq_getElem (show chn < w.chnIdx.length by omega)
  have h2 := List.getElem?_eq_getElem (show chn + 1 < w.chnIdx.length by omega)
  have := C43_program_channels p hv w hw chn _ _ hc h1 h2
  refine ⟨?_, fun s hs => List.mem_of_mem_drop (List.mem_of_mem_take hs)⟩
  unfold PWSpace.block
  simp only [List.getD_eq_getElem?_getD, h1, h2, Option.getD_some]
  exact this

/-- The list of deuteron states, as positions in the block. -/
theorem deut_list {p : PWParams} (hv : ValidTruncation p) {w : PWSpace} (hw : constructPW p = some w) {chn : Nat} (hc : chn < w.nChn) :
    ∃ deut : List (Fin (w.block chn).length), IsDeuteronList (w.block chn) deut ∧ (findDeuteronChannels w).getD chn [] = deut.map (·.val) := by
  have hch := (block_channel hv hw hc).1
  have e : (findDeuteronChannels w).getD chn [] = indicesWhere isDeuteron (w.block chn) := by
    unfold findDeuteronChannels
    rw [List.getD_eq_getElem?_getD, List.getElem?_map, List.getElem?_range hc]; rfl
  rw [e]
  set L := indicesWhere isDeuteron (w.block chn) with hL
  have hmem : ∀ i, i ∈ L ↔ ∃ h : i < (w.block chn).length, isDeuteron ((w.block chn)[i]) = true := fun i => mem_indicesWhere
  have hlt : ∀ i ∈ L, i < (w.block chn).length := fun i hi => ((hmem i).1 hi).1
  have hmap : (L.attach.map fun i => (⟨i.1, hlt i.1 i.2⟩ : Fin (w.block chn).length)).map (·.val) = L := by
    rw [List.map_map]
    exact List.attach_map_subtype_val L
  refine ⟨L.attach.map fun i => ⟨i.1, hlt i.1 i.2⟩, ⟨?_, ?_⟩, hmap.symm⟩
  · have := sorted_indicesWhere isDeuteron (w.block chn)
    rw [← hL, ← hmap, List.pairwise_map] at this
    exact this
  · intro a
    have : a ∈ (L.attach.map fun i => (⟨i.1, hlt i.1 i.2⟩ : Fin (w.block chn).length)) ↔ a.val ∈ L := by
      constructor
      · intro ha
        obtain ⟨i, _, rfl⟩ := List.mem_map.1 ha
        exact i.2
      · intro ha
        exact List.mem_map.2 ⟨⟨a.val, ha⟩, List.mem_attach _ _, rfl⟩
    rw [this, hmem]
    have hf := (IsChannel.allowed hch (List.get_mem _ a)).facts
    obtain ⟨aS, aT, aJ, a1, a2, a3, a4⟩ := hf
    have hg : (w.block chn).get a = (w.block chn)[a.val] := rfl
    rw [hg] at aS aT aJ a1 a2 a3 a4 ⊢
    unfold isDeuteron IsDeuteronS
    simp only [Bool.and_eq_true, beq_iff_eq]
    constructor
    · rintro ⟨_, hh⟩; omega
    · intro hh; exact ⟨a.2, by omega⟩

end TicTac
end
