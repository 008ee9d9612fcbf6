import Verif.Props.RunBreakup2
import Verif.Spec.Program
/-! C117: the cells for which breakup amplitudes are recorded and energy conservation.  The search for cells (run_organizer.cpp:136-332) compares the energies of a cell with the nucleon–deuteron
energy `E_com`; the resolvent (main.cpp:385-392) is evaluated at the total energy `E_com + E_bound`. -/
noncomputable section
namespace TicTac
open Spec Classical

theorem deut_unique {states : List PWState} {a b : List (Fin states.length)} (ha : IsDeuteronList states a) (hb : IsDeuteronList states b) : a = b := by
  refine List.Pairwise.eq_of_mem_iff ha.1 hb.1 fun x => ?_
  rw [ha.2, hb.2]

theorem bin_unique {Nq : Nat} {q : Nat → ℝ} (hg : IsGrid Nq q) {i j : Nat} (hi : i < Nq) (hj : j < Nq) {x : ℝ} (h1 : q i < x) (h2 : x < q (i + 1)) (h3 : q j < x) (h4 : x < q (j + 1)) :
    i = j := by
  have mono : ∀ a b, a ≤ b → b ≤ Nq → q a ≤ q b := by
    intro a b hab
    induction b, hab using Nat.le_induction with
    | base => intro _; exact le_rfl
    | succ b _ ih => intro hb; exact (ih (by omega)).trans (hg.2 b (by omega)).le
  by_contra hne
  rcases Nat.lt_or_gt_of_ne hne with h | h
  · have := mono (i + 1) j h (by omega); linarith
  · have := mono (j + 1) i h (by omega); linarith

/-- The boundaries of a state's bins, read through the pointer of the search. -/
theorem edge_ptr {p : PWParams} (ht : p.tensor = true) {J P : Int} {states : List PWState} (hch : IsChannel p J P states) (Np : Nat) (e : Bool → Int → ℝ) (a : Fin states.length) :
    ∃ b n, ePtr p Np (states.get a) = some (b, n) ∧ ∀ k : Nat, edgeOf p Np e (states.get a) k = e b (n + k) := by
  obtain ⟨b, n, hs, hp, -⟩ := ePtr_eq ht Np (IsChannel.allowed hch (List.get_mem states a))
  refine ⟨_, _, hp, fun k => ?_⟩
  unfold edgeOf
  rw [hs]
  dsimp only
  congr 1
  split <;> push_cast <;> ring

/-- Resolvent of a continuum cell. -/
theorem resolvent_cell {p : PWParams} (ht : p.tensor = true) {J P : Int} {states : List PWState} (hch : IsChannel p J P states) {Np Nq : Nat} {q : Nat → ℝ} {e : Bool → Int → ℝ} {E : ℝ}
    {G0 G : Nat → ℂ} (hG : resolventArray p Np Nq q e E states G0 = some G) (y : Idx states.length Nq Np) (h0 : 0 ≤ edgeOf p Np e (states.get y.1) y.2.2) :
    G (flat y) = resolventCCcore E (ndEnergy 0 (q (y.2.1 + 1))) (ndEnergy 0 (q y.2.1)) (edgeOf p Np e (states.get y.1) (y.2.2 + 1)) (edgeOf p Np e (states.get y.1) y.2.2) := by
  obtain ⟨G', hG', hval⟩ := resolventArray_eq p ht Np Nq q e E states (fun s hs => IsChannel.allowed hch hs) G0
  rw [hG] at hG'
  cases hG'
  obtain ⟨b, n, hs, hv⟩ := hval y.1 y.1.2 y.2.1 y.2.1.2 y.2.2 y.2.2.2
  have hedge : ∀ k : Nat, edgeOf p Np e (states.get y.1) k = e b ((n * (eLen Np b : Nat) + if SecondMember states[y.1] then ((Np + 1 : Nat) : Int) else 0) + k) := by
    intro k
    unfold edgeOf
    rw [show slotOf p (states.get y.1) = some (b, n) from hs]
    dsimp only
    congr 1
    rw [show states.get y.1 = states[y.1] from rfl]
    split <;> push_cast <;> ring
  have e0 := hedge y.2.2
  have e1 := hedge (y.2.2 + 1)
  push_cast at e1
  rw [← add_assoc] at e1
  dsimp only at hv
  rw [show G (flat y) = G (y.1 * Nq * Np + y.2.1 * Np + y.2.2) from rfl, hv]
  rw [show (e b ((n * (eLen Np b : Nat) + if SecondMember states[(y.1 : Nat)] then ((Np + 1 : Nat) : Int) else 0) + (y.2.2 : Nat))) = edgeOf p Np e (states.get y.1) y.2.2 from e0.symm,
    show (e b ((n * (eLen Np b : Nat) + if SecondMember states[(y.1 : Nat)] then ((Np + 1 : Nat) : Int) else 0) + (y.2.2 : Nat) + 1)) = edgeOf p Np e (states.get y.1) (y.2.2 + 1) from e1.symm]
  unfold resolventCell resolventCC
  dsimp only
  rw [if_neg (not_lt.2 h0), if_neg (not_lt.2 h0), if_neg (not_lt.2 h0), zero_add]
  rw [spectatorE_eq, spectatorE_eq]

section
variable {p : PWParams} {J P : Int} {states : List PWState} {Np Nq : Nat} {q : Nat → ℝ} {e : Bool → Int → ℝ} {Eb Ecom : ℝ} {l : List (Int × Int × Int)} {G0 G : Nat → ℂ}
  {edges : Fin states.length → Nat → ℝ}

/-- **C117.** For every continuum cell at an energy above the breakup threshold: the cell is open - the resolvent of the calculation has an imaginary part there - exactly when the total
energy `E_com + E_bound` lies inside the cell; amplitudes are recorded for the cell if the cell contains `E_com`, which is larger by the binding energy. So for a cell to be both, its
energies must extend from below `E_com + E_bound` to `E_com`. -/
theorem C117_open (ht : p.tensor = true) (hch : IsChannel p J P states) (hg : IsGrid Nq q) (hedges : ∀ a k, edges a k = edgeOf p Np e (states.get a) k)
    (hl : breakupEnergy p Np Nq q e Eb states Ecom = .ok l) (h0 : 0 ≤ Ecom + Eb) (hEb : Eb < 0) (hG : resolventArray p Np Nq q e (Ecom + Eb) states G0 = some G)
    (y : Idx states.length Nq Np) (hy : 0 ≤ edges y.1 y.2.2) (hw : edges y.1 y.2.2 < edges y.1 (y.2.2 + 1)) :
    ((G (flat y)).im < 0 ↔ cellLow edges q y < Ecom + Eb ∧ Ecom + Eb < cellHigh edges q y) ∧
    ((G (flat y)).im = 0 ↔ ¬ (cellLow edges q y < Ecom + Eb ∧ Ecom + Eb < cellHigh edges q y)) ∧
    (cellLow edges q y ≤ Ecom → Ecom ≤ cellHigh edges q y → ((y.1 : Int), (y.2.1 : Int), (y.2.2 : Int)) ∈ l) ∧
    (cellLow edges q y ≤ Ecom ∧ Ecom ≤ cellHigh edges q y ∧ (G (flat y)).im < 0 ↔ cellLow edges q y < Ecom + Eb ∧ Ecom ≤ cellHigh edges q y) := by
  have hq : ndEnergy 0 (q y.2.1) < ndEnergy 0 (q (y.2.1 + 1)) :=
    ndEnergy_strict 0 _ _ (by norm_num [Mn, Mp]) (grid_nonneg hg y.2.1 y.2.1.2.le) (hg.2 y.2.1 y.2.1.2)
  have hcell := resolvent_cell ht hch hG y (by rw [← hedges]; exact hy)
  rw [← hedges, ← hedges] at hcell
  obtain ⟨i1, i2, i3, -⟩ := C42_imaginary_part (Ecom + Eb) _ _ _ _ hw hq
  rw [← hcell] at i1 i2 i3
  unfold cellLow cellHigh
  have key : (G (flat y)).im < 0 ↔ edges y.1 y.2.2 + ndEnergy 0 (q y.2.1) < Ecom + Eb ∧ Ecom + Eb < edges y.1 (y.2.2 + 1) + ndEnergy 0 (q (y.2.1 + 1)) := by
    constructor
    · intro h
      constructor
      · by_contra hx
        rw [i2 (Or.inl (not_lt.1 hx))] at h
        exact lt_irrefl _ h
      · by_contra hx
        rw [i2 (Or.inr (not_lt.1 hx))] at h
        exact lt_irrefl _ h
    · rintro ⟨h1, h2⟩
      exact i3 h1 h2
  refine ⟨key, ?_, ?_, ?_⟩
  · rw [← key, not_lt]
    exact ⟨fun h => h.ge, fun h => le_antisymm i1 h⟩
  · intro h1 h2
    obtain ⟨b, n, hp, hk⟩ := edge_ptr ht hch Np e y.1
    have k0 := hk y.2.2
    have k1 := hk (y.2.2 + 1)
    rw [← hedges] at k0 k1
    refine ((C40_recorded_cells p Np Nq q e Eb Ecom states l hl).2 h0).2.2 y.1 y.1.2 y.2.1 y.2.1.2 y.2.2 y.2.2.2 ⟨b, n, hp, ?_⟩
    rw [show n + ((y.2.2 : Nat) : Int) + 1 = n + ((y.2.2 + 1 : Nat) : Int) by push_cast; ring, ← k0, ← k1]
    exact ⟨h1, h2, hy, hy.trans hw.le⟩
  · rw [key]
    constructor
    · rintro ⟨-, h2, h3, -⟩; exact ⟨h3, h2⟩
    · rintro ⟨h1, h2⟩; exact ⟨by linarith, h2, h1, by linarith⟩

/-- **C117, fine grids.** If no cell is wider than half the binding energy, every recorded cell of the grid - also the neighbours - lies above the total energy: the resolvent has no
imaginary part there, and no cell that contains the total energy is recorded. -/
theorem C117_fine_grid (ht : p.tensor = true) (hch : IsChannel p J P states) (hg : IsGrid Nq q) (hedges : ∀ a k, edges a k = edgeOf p Np e (states.get a) k)
    (hmono : ∀ a, ∀ k < Np, edges a k < edges a (k + 1)) (hl : breakupEnergy p Np Nq q e Eb states Ecom = .ok l) (h0 : 0 ≤ Ecom + Eb)
    (hG : resolventArray p Np Nq q e (Ecom + Eb) states G0 = some G) (hfine : ∀ y : Idx states.length Nq Np, 0 ≤ edges y.1 y.2.2 → cellHigh edges q y - cellLow edges q y ≤ -Eb / 2)
    (y : Idx states.length Nq Np) (hy : 0 ≤ edges y.1 y.2.2) (hrec : ((y.1 : Int), (y.2.1 : Int), (y.2.2 : Int)) ∈ l) :
    Ecom + Eb ≤ cellLow edges q y ∧ (G (flat y)).im = 0 := by
  have hq : ∀ i < Nq, ndEnergy 0 (q i) < ndEnergy 0 (q (i + 1)) := fun i hi =>
    ndEnergy_strict 0 _ _ (by norm_num [Mn, Mp]) (grid_nonneg hg i hi.le) (hg.2 i hi)
  have hlow : Ecom + Eb ≤ cellLow edges q y := by
    have hm : ∀ s ∈ states, ∀ b n, ePtr p Np s = some (b, n) → ∀ ip < Np, e b (n + ip) ≤ e b (n + ip + 1) := by
      intro s hs b n hp ip hip
      obtain ⟨a, rfl⟩ := List.get_of_mem hs
      obtain ⟨b', n', hp', hk⟩ := edge_ptr ht hch Np e a
      rw [hp] at hp'; cases hp'
      have k0 := hk ip
      have k1 := hk (ip + 1)
      rw [← hedges] at k0 k1
      rw [show n + ((ip : Nat) : Int) + 1 = n + ((ip + 1 : Nat) : Int) by push_cast; ring, ← k0, ← k1]
      exact (hmono a ip hip).le
    obtain ⟨a, ha, b, n, hp, iq, hiq, ip, hip, hit, t1, t2, t3⟩ := (C40_recorded_exactly p Np Nq q e Eb Ecom states l hl h0 hg hm _).1 hrec
    dsimp only at t1 t2 t3
    have ea : y.1 = ⟨a, ha⟩ := Fin.ext (by exact_mod_cast t1)
    obtain ⟨b', n', hp', hk⟩ := edge_ptr ht hch Np e y.1
    rw [ea, show states.get ⟨a, ha⟩ = states[a] from rfl, hp] at hp'
    cases hp'
    have k0 := hk ip
    have k1 := hk (ip + 1)
    rw [← hedges] at k0 k1
    rw [show n + ((ip : Nat) : Int) + 1 = n + ((ip + 1 : Nat) : Int) by push_cast; ring, ← k0, ← k1] at hit
    obtain ⟨c1, c2, c3, c4⟩ := hit
    have w1 := hfine (y.1, ⟨iq, hiq⟩, ⟨ip, hip⟩) c3
    have w2 := hfine y hy
    unfold cellHigh cellLow at w1 w2
    unfold cellLow
    dsimp only at w1
    have dq : ndEnergy 0 (q iq) ≤ ndEnergy 0 (q (y.2.1 + 1)) := by
      rcases (show (y.2.1 : Nat) = iq ∨ (y.2.1 : Nat) = iq + 1 ∨ (y.2.1 : Nat) + 1 = iq by
        rcases t2 with h | h
        · left; exact_mod_cast h
        · split at h
          · right; left; omega
          · right; right; omega) with h | h | h
      · rw [h]; exact (hq iq hiq).le
      · have h1 := hq iq hiq
        have h2 := hq y.2.1 y.2.1.2
        rw [h] at h2 ⊢
        linarith
      · rw [h]
    have dp : edges y.1 ip ≤ edges y.1 (y.2.2 + 1) := by
      rcases (show (y.2.2 : Nat) = ip ∨ (y.2.2 : Nat) = ip + 1 ∨ (y.2.2 : Nat) + 1 = ip by
        rcases t3 with h | h
        · left; exact_mod_cast h
        · split at h
          · right; left; omega
          · right; right; omega) with h | h | h
      · rw [h]; exact (hmono y.1 ip hip).le
      · have h1 := hmono y.1 ip hip
        have h2 := hmono y.1 y.2.2 y.2.2.2
        rw [h] at h2 ⊢
        linarith
      · rw [h]
    linarith
  refine ⟨hlow, ?_⟩
  have hcell := resolvent_cell ht hch hG y (by rw [← hedges]; exact hy)
  rw [← hedges, ← hedges] at hcell
  rw [hcell]
  exact (C42_imaginary_part (Ecom + Eb) _ _ _ _ (hmono y.1 y.2.2 y.2.2.2) (hq y.2.1 y.2.1.2)).2.1 (Or.inl hlow)

end

/-- The cells recorded for energy `k`, by number and as a list. -/
theorem slice_mem {v : List (Int × Int × Int)} {off : List Nat} {k lo hi : Nat} (d1 : off[k]? = some lo) (d2 : off[k + 1]? = some hi) (t : Int × Int × Int) :
    t ∈ (v.drop lo).take (hi - lo) ↔ ∃ b, off.getD k 0 ≤ b ∧ b < off.getD (k + 1) 0 ∧ v[b]? = some t := by
  rw [List.getD_eq_getElem?_getD, List.getD_eq_getElem?_getD, d1, d2]
  simp only [Option.getD_some]
  constructor
  · intro hm
    obtain ⟨j, hj, hjv⟩ := List.mem_iff_getElem.1 hm
    rw [List.length_take, List.length_drop] at hj
    refine ⟨lo + j, by omega, by omega, ?_⟩
    rw [List.getElem_take, List.getElem_drop] at hjv
    rw [← hjv]
    exact List.getElem?_eq_getElem _
  · rintro ⟨b, h1, h2, h3⟩
    obtain ⟨h4, rfl⟩ := List.getElem?_eq_some_iff.1 h3
    refine List.mem_iff_getElem.2 ⟨b - lo, by rw [List.length_take, List.length_drop]; omega, ?_⟩
    rw [List.getElem_take, List.getElem_drop]
    congr 1; omega

/-- **C117, a whole channel calculation.** With the energies of the discretised problem, the energy bins of the interaction's scattering wave packets and the resolvents used by the solver:
which continuum cells are open at an energy, which are recorded, and that on a fine grid no recorded cell is open. -/
theorem C117_run {x : RunInput} {env : RunEnv} {w : PWSpace} {chn : Nat} {P123 : List (Entry ℝ)} (H : RunHyps x env w chn P123) (hb : x.breakup = true)
    {s : RunSetup} {U UBU : Nat → Option ℂ} (h : RunChannel x env w chn P123 s U UBU) (hneg : s.swp.Eb < 0) :
    ∃ C lam edges, ScatteringBasis x.p.isoBreak x.g x.pot (w.block chn) x.Nq s.swp.Eb C lam ∧ EnergyBins (w.block chn) x.g.Np s.swp.Eb lam edges ∧
    ∃ v off, findBreakup x.p x.g.Np x.Nq x.q s.swp.e s.swp.Eb (w.block chn) s.os.Ecom = .ok (v, off) ∧
    ∀ k E, s.os.Ecom[k]? = some E → 0 ≤ E + s.swp.Eb → ∀ y : Idx (w.block chn).length x.Nq x.g.Np, 0 ≤ edges y.1 y.2.2 →
      ((s.cfg.G (k * s.cfg.D + flat y)).im < 0 ↔ cellLow edges x.q y < E + s.swp.Eb ∧ E + s.swp.Eb < cellHigh edges x.q y) ∧
      (cellLow edges x.q y ≤ E → E ≤ cellHigh edges x.q y →
        ∃ b, off.getD k 0 ≤ b ∧ b < off.getD (k + 1) 0 ∧ v[b]? = some ((y.1.val : Int), (y.2.1.val : Int), (y.2.2.val : Int))) ∧
      ((∀ y : Idx (w.block chn).length x.Nq x.g.Np, 0 ≤ edges y.1 y.2.2 → cellHigh edges x.q y - cellLow edges x.q y ≤ -s.swp.Eb / 2) →
        ∀ b, off.getD k 0 ≤ b → b < off.getD (k + 1) 0 → v[b]? = some ((y.1.val : Int), (y.2.1.val : Int), (y.2.2.val : Int)) →
          E + s.swp.Eb ≤ cellLow edges x.q y ∧ (s.cfg.G (k * s.cfg.D + flat y)).im = 0) := by
  obtain ⟨ents, hsort, hset, -⟩ := h
  obtain ⟨v, off, hfb, -⟩ := breakup_cfg hb hset
  obtain ⟨M, bu, Gs, CT, VC, hM, hst, hos, hbu, hGs, hCT, hVC, -, hV, hcfg⟩ := runSetup_ok hset
  obtain ⟨M', hM', hread⟩ := potArrays_read H.tensor H.valid H.basis H.mid x.pot env.junkV env.initV
  rw [hM] at hM'; cases hM'
  have hhold : HoldsPotential x.p x.g x.pot w.states (fun b i => M (b, i)) := hread
  obtain ⟨hch, hsub⟩ := block_channel H.valid H.basis H.channel
  have hbasis := basis_of_run H.tensor H.valid H.basis H.pgrid H.hermitian hhold H.lapack hst hch hsub x.Nq
  have hbins := bins_of_run H.tensor H.valid H.basis H.pgrid H.hermitian hhold H.lapack hst hch hsub H.bins (H.simple _ _ _ hbasis)
  refine ⟨_, _, _, hbasis, hbins, v, off, hfb, ?_⟩
  intro k E hk h0 y hy
  obtain ⟨kE, rfl⟩ := List.getElem?_eq_some_iff.1 hk
  obtain ⟨hGl, hGv⟩ := mapM_ok _ _ _ hGs
  have hGk := orStop_ok (hGv k kE (by omega))
  have hD : s.cfg.D = (w.block chn).length * x.Nq * x.g.Np := by rw [hcfg]; rfl
  have hGeq : s.cfg.G (k * s.cfg.D + flat y) = (Gs[(k : Nat)]'(by omega)) (flat y) := by
    rw [hD, show s.cfg.G = gArray ((w.block chn).length * x.Nq * x.g.Np) Gs by rw [hcfg], gArray_at _ _ _ (by omega) _ (flat_lt y)]
  obtain ⟨-, -, -, hoff⟩ := C40_offsets _ _ _ _ _ _ _ _ _ _ hfb
  obtain ⟨lo, hi, d1, d2, d3, d4⟩ := hoff k kE
  have hmono : ∀ a, ∀ k < x.g.Np, edgeOf x.p x.g.Np s.swp.e ((w.block chn).get a) k < edgeOf x.p x.g.Np s.swp.e ((w.block chn).get a) (k + 1) := fun a => (hbins a).1.1
  rw [hGeq]
  obtain ⟨c1, -, c3, -⟩ := C117_open H.tensor hch H.qgrid (edges := fun a k => edgeOf x.p x.g.Np s.swp.e ((w.block chn).get a) k) (fun _ _ => rfl) d4 h0 hneg hGk y hy (hmono _ _ y.2.2.2)
  refine ⟨c1, fun e1 e2 => (slice_mem d1 d2 _).1 (c3 e1 e2), fun hfine b b1 b2 b3 => ?_⟩
  exact C117_fine_grid H.tensor hch H.qgrid (fun _ _ => rfl) hmono d4 h0 hGk hfine y hy ((slice_mem d1 d2 _).2 ⟨b, b1, b2, b3⟩)

end TicTac
end
