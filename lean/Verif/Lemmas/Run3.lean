import Verif.Lemmas.Run2
/-! Lemmas for the whole run: the stored wave packets form the scattering basis of the pair Hamiltonian. -/
noncomputable section
namespace TicTac
open Spec
open Classical

/-- The potential arrays hold the elements of the interaction. -/
def HoldsPotential (p : PWParams) (g : PotGrid) (V : PotModel) (states : List PWState) (M : Bool → Int → ℝ) : Prop :=
  ∀ a ∈ states, ∀ c ∈ states, SameInteraction true a c → ∃ b n, slotOf p a = some (b, n) ∧
      ∀ i < g.Np, ∀ j < g.Np, M b (n * (chnDim g.Np b * chnDim g.Np b : Nat) + (chanPos g.Np a i * chnDim g.Np b + chanPos g.Np c j : Nat)) =
        wpElement g (element V p.isoBreak a c) i j

section
variable {p : PWParams} (ht : p.tensor = true) (hv : ValidTruncation p) {w : PWSpace} (hw : constructPW p = some w) {g : PotGrid}
  {pot : PotModel} {M : Bool → Int → ℝ} (hM : HoldsPotential p g pot w.states M)
include ht hM

theorem interaction_eq {J P : Int} {states : List PWState} (h : IsChannel p J P states) (hsub : ∀ s ∈ states, s ∈ w.states) (Nq : Nat) :
    twoBody p states Nq g.Np M = interactionMatrix p.isoBreak g pot states Nq := by
  ext x y
  unfold interactionMatrix
  by_cases hc : x.2.1 = y.2.1 ∧ PairConnected (states.get x.1) (states.get y.1)
  · rw [if_pos hc]
    obtain ⟨b, n, s1, s2⟩ := hM _ (hsub _ (List.get_mem states x.1)) _ (hsub _ (List.get_mem states y.1)) hc.2.1
    rw [twoBody_apply ht h M x y hc.1 hc.2 s1, s2 _ x.2.2.2 _ y.2.2.2]
  · rw [if_neg hc, twoBody_off M x y hc]

include hv hw in
theorem pot_symm (hH : Hermitian pot) : ∀ s ∈ w.states, ∀ b n, slotOf p s = some (b, n) → ∀ r < chnDim g.Np b, ∀ c < chnDim g.Np b,
    M b (n * (chnDim g.Np b * chnDim g.Np b : Nat) + (r * chnDim g.Np b + c : Nat)) =
      M b (n * (chnDim g.Np b * chnDim g.Np b : Nat) + (c * chnDim g.Np b + r : Nat)) := by
  intro s hs b n hsl r hr c hc
  have hch := channel_of_state hv hw s.twoJ3 s.P
  set L := w.states.filter fun x => decide (x.twoJ3 = s.twoJ3 ∧ x.P = s.P) with hL
  have hsub : ∀ x ∈ L, x ∈ w.states := fun x hx => (List.mem_filter.1 hx).1
  have hsL : s ∈ L := List.mem_filter.2 ⟨hs, by simp⟩
  obtain ⟨a, ha, i, hi⟩ := row_cover ht hch s hsL hsl g.Np r hr
  obtain ⟨d, hd, j, hj⟩ := row_cover ht hch s hsL hsl g.Np c hc
  have had := pairConnected_trans (pairConnected_symm ha) hd
  have aa := IsChannel.allowed hch (List.get_mem L a)
  have ad := IsChannel.allowed hch (List.get_mem L d)
  have as' := IsChannel.allowed hch hsL
  have e1 : slotOf p (L.get a) = some (b, n) := by rw [← slot_connected ht as' aa ha, hsl]
  have e2 : slotOf p (L.get d) = some (b, n) := by rw [← slot_connected ht as' ad hd, hsl]
  obtain ⟨b1, n1, f1, v1⟩ := hM _ (hsub _ (List.get_mem L a)) _ (hsub _ (List.get_mem L d)) had.1
  obtain ⟨b2, n2, f2, v2⟩ := hM _ (hsub _ (List.get_mem L d)) _ (hsub _ (List.get_mem L a)) (pairConnected_symm had).1
  rw [e1] at f1; cases f1
  rw [e2] at f2; cases f2
  have w1 := v1 i i.2 j j.2
  have w2 := v2 j j.2 i i.2
  rw [hi, hj] at w1 w2
  rw [w1, w2]
  exact wpElement_swap g _ _ (element_hermitian hH _ had.1 aa.facts ad.facts) i j

end

theorem chanPos_mod (N : Nat) (s : PWState) (i : Nat) (hi : i < N) : chanPos N s i % N = i := by
  unfold chanPos
  split_ifs
  · rw [Nat.add_mod_left, Nat.mod_eq_of_lt hi]
  · exact Nat.mod_eq_of_lt hi

/-- The Hamiltonian of a channel, as a flat array. -/
def hamFlat (g : PotGrid) (M : Bool → Int → ℝ) : Bool → Int → ℝ := flatOf g.Np fun b n =>
  hamiltonian g.Np g.pWP fun r c => M b (n * (chnDim g.Np b * chnDim g.Np b : Nat) + (r * chnDim g.Np b + c : Nat))

section
variable {p : PWParams} (ht : p.tensor = true) {J P : Int} {states : List PWState} (h : IsChannel p J P states)
include ht h

/-- Two different basis vectors with the same q bin and connected states are stored in different rows. -/
theorem chanPos_inj {N : Nat} {a c : Fin states.length} (hc : PairConnected (states.get a) (states.get c)) {i j : Nat} (hi : i < N) (hj : j < N)
    (he : chanPos N (states.get a) i = chanPos N (states.get c) j) : a = c ∧ i = j := by
  have hx := IsChannel.allowed h (List.get_mem states a)
  have hy := IsChannel.allowed h (List.get_mem states c)
  rw [chanPos_eq, chanPos_eq, Nat.mul_comm, Nat.mul_comm N] at he
  obtain ⟨e1, e2⟩ := radix_inj hi hj he
  have hself : PairConnected (states.get a) (states.get a) := ⟨⟨rfl, rfl, Or.inl rfl⟩, rfl, rfl⟩
  have hst := connected_unique hx hy ((h.2 _).1 (List.get_mem states a)).2 ((h.2 _).1 (List.get_mem states c)).2 hself hc e1
  exact ⟨(List.nodup_iff_injective_get.1 h.1) hst, e2⟩

theorem ham_eq (g : PotGrid) (M : Bool → Int → ℝ) (Nq : Nat) :
    twoBody p states Nq g.Np (hamFlat g M) = twoBody p states Nq g.Np M + Matrix.diagonal fun x => pairKinetic g x.2.2 := by
  ext x y
  rw [Matrix.add_apply]
  by_cases hc : x.2.1 = y.2.1 ∧ PairConnected (states.get x.1) (states.get y.1)
  · obtain ⟨b, n, s1, s2, s3, s4⟩ := slot_info ht h x.1 y.1 hc.2
    rw [twoBody_apply ht h M x y hc.1 hc.2 s1, twoBody_apply ht h _ x y hc.1 hc.2 s1]
    unfold hamFlat
    rw [flatOf_eq _ _ _ _ _ _ (chanPos_lt ht h s3 _) (chanPos_lt ht h s4 _)]
    unfold hamiltonian
    congr 1
    by_cases hxy : x = y
    · subst hxy
      rw [Matrix.diagonal_apply_eq, if_pos rfl, chanPos_mod _ _ _ x.2.2.2]
      rfl
    · rw [Matrix.diagonal_apply_ne _ hxy, if_neg]
      intro he
      obtain ⟨e1, e2⟩ := chanPos_inj ht h hc.2 x.2.2.2 y.2.2.2 he
      exact hxy (Prod.ext e1 (Prod.ext hc.1 (Fin.ext e2)))
  · rw [twoBody_off _ x y hc, twoBody_off _ x y hc, Matrix.diagonal_apply_ne, add_zero]
    rintro rfl
    exact hc ⟨rfl, ⟨rfl, rfl, Or.inl rfl⟩, rfl, rfl⟩

end

/-- Energy of the wave packet stored at bin `i` of state `s`: the Rayleigh quotient. -/
def energyOf (p : PWParams) (g : PotGrid) (M C : Bool → Int → ℝ) (s : PWState) (i : Nat) : ℝ :=
  match slotOf p s with
  | some (b, n) => ∑ r ∈ Finset.range (chnDim g.Np b),
      C b (n * (chnDim g.Np b * chnDim g.Np b : Nat) + (r * chnDim g.Np b + chanPos g.Np s i : Nat)) *
      ∑ c ∈ Finset.range (chnDim g.Np b),
        hamiltonian g.Np g.pWP (fun r c => M b (n * (chnDim g.Np b * chnDim g.Np b : Nat) + (r * chnDim g.Np b + c : Nat))) r c *
          C b (n * (chnDim g.Np b * chnDim g.Np b : Nat) + (c * chnDim g.Np b + chanPos g.Np s i : Nat))
  | none => 0

theorem secondMember_iff_deuteron {p : PWParams} {s : PWState} (hs : Allowed p.J2max p.twoJ3max p.isoBreak s) :
    (IsDeuteronChannel s ↔ IsDeuteronS s ∨ (IsDeuteronChannel s ∧ SecondMember s)) ∧ (IsDeuteronS s → ¬ SecondMember s ∧ IsDeuteronChannel s) := by
  obtain ⟨aS, aT, aJ, a1, a2, a3, a4⟩ := hs.facts
  have hi := hs.2.2.2.2.2.2.2.2.2.2.2
  unfold IsDeuteronChannel IsDeuteronS SecondMember
  constructor
  · constructor
    · intro hh
      by_cases h0 : s.L = 0
      · exact Or.inl ⟨h0, hh.1, hh.2.1⟩
      · exact Or.inr ⟨hh, Or.inl ⟨by omega, by omega⟩⟩
    · rintro (hh | hh)
      · exact ⟨hh.2.1, hh.2.2, Or.inl hh.1⟩
      · exact hh.1
  · intro hh
    refine ⟨by omega, hh.2.1, hh.2.2, Or.inl hh.1⟩

section
variable {p : PWParams} (ht : p.tensor = true) (hv : ValidTruncation p) {w : PWSpace} (hw : constructPW p = some w) {g : PotGrid}
  (hb : ∀ i < g.Np, g.pWP i < g.pWP (i + 1)) {pot : PotModel} (hH : Hermitian pot) {M : Bool → Int → ℝ}
  (hM : HoldsPotential p g pot w.states M) {diag : Diag} (hd : LapackContract diag) {garbage : Nat → ℝ} {C0 : Bool → Int → ℝ} {Eb0 : ℝ}
  {st : SwpState} (hrun : makeSwpStates p g.Np g.pWP M diag garbage C0 Eb0 w.states = .ok st)
include ht hv hw hb hH hM hd hrun

/-- The energies of one channel in terms of `energyOf`. -/
theorem energies_of_slot (s : PWState) (hs : s ∈ w.states) {b : Bool} {n : Int} (hsl : slotOf p s = some (b, n)) :
    ∃ lam : Nat → ℝ,
      ChannelSolved (chnDim g.Np b)
        (hamiltonian g.Np g.pWP fun r c => M b (n * (chnDim g.Np b * chnDim g.Np b : Nat) + (r * chnDim g.Np b + c : Nat))) lam
        (fun r k => st.C b (n * (chnDim g.Np b * chnDim g.Np b : Nat) + (r * chnDim g.Np b + swpPos g.Np b k : Nat))) ∧
      (∀ t : PWState, slotOf p t = some (b, n) → (SecondMember t → b = true) → ∀ i < g.Np, energyOf p g M st.C t i = lam (eigNum b t i)) ∧
      (IsDeuteronChannel s → lam 0 < 0 ∧ st.Eb = lam 0 ∧ ∀ k, 1 ≤ k → k < chnDim g.Np b → 0 ≤ lam k) ∧
      (¬ IsDeuteronChannel s → ∀ k < chnDim g.Np b, 0 ≤ lam k) ∧
      (3 ≤ g.Np → (∀ i j, i < j → j < chnDim g.Np b → lam i < lam j) → (∀ i < chnDim g.Np b, lam i ≠ 0) →
        (let e := fun i : Nat => st.e b (n * (eLen g.Np b : Nat) + i)
         let f := fun i : Nat => lam (if b then 2 * i else i)
         Encloses g.Np e f ∧ (IsDeuteronChannel s → e 0 = lam 0 ∧ e 1 = 0) ∧ (¬ IsDeuteronChannel s → e 0 = 0) ∧
         (b = true → e (g.Np + 1) = 0 ∧ Encloses g.Np (fun i => e (g.Np + 1 + i)) (fun i => lam (2 * i + 1))))) := by
  obtain ⟨lam, h1, h2, h3, h4⟩ := C72_stored_wave_packets p ht hv w hw g.Np g.pWP hb M (pot_symm ht hv hw hM hH) diag hd garbage C0 Eb0 st hrun s hs b n hsl
  refine ⟨lam, h1, ?_, h2, h3, h4⟩
  intro t hst hsec i hi
  obtain ⟨k1, k2⟩ := eigNum_pos g.Np b t hsec i hi
  unfold energyOf
  rw [hst]
  dsimp only
  rw [← k2]
  exact rayleigh h1 _ k1

/-- The stored wave packets are the scattering basis of the pair Hamiltonian in a three-nucleon channel. -/
theorem basis_of_run {J P : Int} {states : List PWState} (h : IsChannel p J P states) (hsub : ∀ s ∈ states, s ∈ w.states) (Nq : Nat) :
    ScatteringBasis p.isoBreak g pot states Nq st.Eb (twoBody p states Nq g.Np st.C) (fun a i => energyOf p g M st.C (states.get a) i) := by
  have hself : ∀ s : PWState, PairConnected s s := fun s => ⟨⟨rfl, rfl, Or.inl rfl⟩, rfl, rfl⟩
  refine ⟨?_, ?_, ?_, ?_, ?_⟩
  · rw [← twoBody_unit ht h Nq g.Np, twoBody_transpose ht h]
    ext x y
    by_cases hc : x.2.1 = y.2.1 ∧ PairConnected (states.get x.1) (states.get y.1)
    · obtain ⟨b, n, s1, s2, s3, s4⟩ := slot_info ht h x.1 y.1 hc.2
      obtain ⟨lam, ⟨_, _, hort⟩, _⟩ := energies_of_slot ht hv hw hb hH hM hd hrun _ (hsub _ (List.get_mem states y.1)) s2
      rw [twoBody_mul ht h _ _ x y s2, if_pos hc, twoBody_apply ht h _ x y hc.1 hc.2 s1,
        unitPot_eq _ _ _ _ _ (chanPos_lt ht h s3 _) (chanPos_lt ht h s4 _)]
      obtain ⟨k1, k2⟩ := eigNum_pos g.Np b (states.get x.1) s3 x.2.2 x.2.2.2
      obtain ⟨l1, l2⟩ := eigNum_pos g.Np b (states.get y.1) s4 y.2.2 y.2.2.2
      have := hort _ k1 _ l1
      dsimp only at this
      rw [k2, l2] at this
      have hiff : (eigNum b (states.get x.1) x.2.2 = eigNum b (states.get y.1) y.2.2) ↔
          chanPos g.Np (states.get x.1) x.2.2 = chanPos g.Np (states.get y.1) y.2.2 := by
        constructor
        · intro e; rw [← k2, ← l2, e]
        · intro e
          obtain ⟨e1, e2⟩ := chanPos_inj ht h hc.2 x.2.2.2 y.2.2.2 e
          rw [e1, e2]
      simp only [hiff] at this
      rw [← this]
      refine Finset.sum_congr rfl fun r hr => ?_
      unfold channelMatrix
      rw [s2]
      dsimp only
      rw [flatOf_eq _ _ _ _ _ _ (chanPos_lt ht h s3 _) (Finset.mem_range.1 hr)]
    · obtain ⟨b, n, s1, s2, s3, s4⟩ := slot_info ht h y.1 y.1 (hself _)
      rw [twoBody_mul ht h _ _ x y s1, if_neg hc, twoBody_off _ x y hc]
  · rw [← interaction_eq ht hM h hsub Nq, ← ham_eq ht h]
    ext x y
    rw [Matrix.mul_diagonal]
    obtain ⟨b, n, s1, s2, s3, s4⟩ := slot_info ht h y.1 y.1 (hself _)
    by_cases hc : x.2.1 = y.2.1 ∧ PairConnected (states.get x.1) (states.get y.1)
    · have sx : slotOf p (states.get x.1) = some (b, n) := by
        rw [slot_connected ht (IsChannel.allowed h (List.get_mem states x.1)) (IsChannel.allowed h (List.get_mem states y.1)) hc.2, s1]
      have sb : SecondMember (states.get x.1) → b = true := by
        obtain ⟨b', n', t1, t2, t3, t4⟩ := slot_info ht h x.1 y.1 hc.2
        rw [sx] at t1; cases t1; exact t3
      obtain ⟨lam, ⟨_, heig, _⟩, hen, _⟩ := energies_of_slot ht hv hw hb hH hM hd hrun _ (hsub _ (List.get_mem states y.1)) s1
      rw [hen _ s1 s3 _ y.2.2.2, twoBody_mul ht h _ _ x y s1, if_pos hc, twoBody_apply ht h _ x y hc.1 hc.2 sx]
      obtain ⟨l1, l2⟩ := eigNum_pos g.Np b (states.get y.1) s3 y.2.2 y.2.2.2
      have := heig _ l1 _ (chanPos_lt ht h sb x.2.2)
      dsimp only at this
      rw [l2] at this
      rw [mul_comm, ← this]
      refine Finset.sum_congr rfl fun r hr => ?_
      unfold channelMatrix
      rw [s1]
      dsimp only
      unfold hamFlat
      rw [flatOf_eq _ _ _ _ _ _ (chanPos_lt ht h sb _) (Finset.mem_range.1 hr)]
    · rw [twoBody_mul ht h _ _ x y s1, if_neg hc, twoBody_off _ x y hc, zero_mul]
  · intro x y hne
    by_contra hc
    exact hne (twoBody_off _ x y hc)
  · intro a hdeu hN
    have ha := IsChannel.allowed h (List.get_mem states a)
    obtain ⟨d1, d2⟩ := (secondMember_iff_deuteron ha).2 hdeu
    obtain ⟨b, n, s1, s2, s3, s4⟩ := slot_info ht h a a (hself _)
    obtain ⟨lam, _, hen, hbd, _⟩ := energies_of_slot ht hv hw hb hH hM hd hrun _ (hsub _ (List.get_mem states a)) s1
    obtain ⟨b1, b2, _⟩ := hbd d2
    have e0 : eigNum b (states.get a) 0 = 0 := by
      unfold eigNum secNum
      rw [if_neg d1]; split <;> rfl
    rw [hen _ s1 s3 0 hN, e0, b2]
    exact ⟨rfl, b1⟩
  · intro a i hi hno
    have ha := IsChannel.allowed h (List.get_mem states a)
    obtain ⟨b, n, s1, s2, s3, s4⟩ := slot_info ht h a a (hself _)
    obtain ⟨lam, _, hen, hbd, hun, _⟩ := energies_of_slot ht hv hw hb hH hM hd hrun _ (hsub _ (List.get_mem states a)) s1
    obtain ⟨k1, k2⟩ := eigNum_pos g.Np b (states.get a) s3 i hi
    rw [hen _ s1 s3 i hi]
    by_cases hdc : IsDeuteronChannel (states.get a)
    · refine (hbd hdc).2.2 _ ?_ k1
      rcases (secondMember_iff_deuteron ha).1.1 hdc with hS | ⟨_, hS⟩
      · have : i ≠ 0 := fun h0 => hno ⟨hS, h0⟩
        unfold eigNum; split <;> omega
      · unfold eigNum secNum
        rw [if_pos (s3 hS), if_pos hS]; omega
    · exact hun hdc _ k1

/-- Stored boundaries of the bins of state `s`. -/
def edgeOf (p : PWParams) (Np : Nat) (e : Bool → Int → ℝ) (s : PWState) (i : Nat) : ℝ :=
  match slotOf p s with
  | some (b, n) => e b (n * (eLen Np b : Nat) + ((if SecondMember s then Np + 1 else 0) + i : Nat))
  | none => 0

theorem bins_of_run {J P : Int} {states : List PWState} (h : IsChannel p J P states) (hsub : ∀ s ∈ states, s ∈ w.states) (hN : 3 ≤ g.Np)
    (hnd : Nondegenerate states g.Np (fun a i => energyOf p g M st.C (states.get a) i)) :
    EnergyBins states g.Np st.Eb (fun a i => energyOf p g M st.C (states.get a) i) (fun a i => edgeOf p g.Np st.e (states.get a) i) := by
  have hself : ∀ s : PWState, PairConnected s s := fun s => ⟨⟨rfl, rfl, Or.inl rfl⟩, rfl, rfl⟩
  intro a
  have ha := IsChannel.allowed h (List.get_mem states a)
  obtain ⟨b, n, s1, s2, s3, s4⟩ := slot_info ht h a a (hself _)
  obtain ⟨lam, ⟨hasc, _⟩, hen, hbd, hun, hbin⟩ := energies_of_slot ht hv hw hb hH hM hd hrun _ (hsub _ (List.get_mem states a)) s1
  have hcov : ∀ k < chnDim g.Np b, ∃ c : Fin states.length, PairConnected (states.get a) (states.get c) ∧ ∃ t < g.Np,
      eigNum b (states.get c) t = k ∧ energyOf p g M st.C (states.get c) t = lam k := by
    intro k hk
    have hpos : swpPos g.Np b k < chnDim g.Np b := by
      clear * - hk
      unfold swpPos chnDim at *
      cases b
      · simpa using hk
      · simp only [if_true] at *; split_ifs <;> omega
    obtain ⟨c, hc, t, hct⟩ := row_cover ht h _ (List.get_mem states a) s1 g.Np _ hpos
    obtain ⟨b', n', t1, t2, t3, t4⟩ := slot_info ht h a c hc
    rw [s1] at t1; cases t1
    obtain ⟨l1, l2⟩ := eigNum_pos g.Np b (states.get c) t4 t t.2
    have : eigNum b (states.get c) t = k := by
      rw [hct] at l2
      clear * - l1 l2 hk
      generalize eigNum b (states.get c) t = m at *
      unfold swpPos chnDim at *
      cases b
      · simpa using l2
      · simp only [if_true] at *
        split_ifs at l2 <;> omega
    exact ⟨c, hc, t, t.2, this, by rw [hen _ t2 t4 t t.2, this]⟩
  have hne : ∀ i < chnDim g.Np b, lam i ≠ 0 := by
    intro k hk
    obtain ⟨c, _, t, htt, _, he⟩ := hcov k hk
    rw [← he]; exact hnd.2 c t htt
  have hstrict : ∀ i j, i < j → j < chnDim g.Np b → lam i < lam j := by
    intro i j hij hj
    refine lt_of_le_of_ne (hasc i j hij.le hj) ?_
    obtain ⟨c, hc, t, htt, e1, e2⟩ := hcov i (by omega)
    obtain ⟨d, hd', u, huu, f1, f2⟩ := hcov j hj
    rw [← e2, ← f2]
    intro he
    obtain ⟨rfl, rfl⟩ := hnd.1 c d t htt u huu (pairConnected_trans (pairConnected_symm hc) hd') he
    omega
  obtain ⟨b1, b2, b3, b4⟩ := hbin hN hstrict hne
  dsimp only at b1 b2 b3 b4
  have hedge : ∀ i, edgeOf p g.Np st.e (states.get a) i =
      st.e b (n * (eLen g.Np b : Nat) + ((if SecondMember (states.get a) then g.Np + 1 else 0) + i : Nat)) := by
    intro i; unfold edgeOf; rw [s1]
  have hlam : ∀ i < g.Np, energyOf p g M st.C (states.get a) i = lam (if b then 2 * i + secNum (states.get a) else i) := by
    intro i hi; rw [hen _ s1 s3 i hi]; rfl
  by_cases hsec : SecondMember (states.get a)
  · have hbt := s3 hsec
    obtain ⟨c1, c2⟩ := b4 hbt
    have hnotS : ¬ IsDeuteronS (states.get a) := fun hh => ((secondMember_iff_deuteron ha).2 hh).1 hsec
    refine ⟨⟨fun i hi => ?_, fun i hi => ?_⟩, fun hh => absurd hh hnotS, fun _ => ?_⟩
    · dsimp only; rw [hedge, hedge, if_pos hsec]; exact c2.1 i hi
    · dsimp only; rw [hedge, hedge, if_pos hsec, hlam i hi, if_pos hbt, show secNum (states.get a) = 1 from if_pos hsec]; exact c2.2 i hi
    · dsimp only; rw [hedge, if_pos hsec]; exact c1
  · refine ⟨⟨fun i hi => ?_, fun i hi => ?_⟩, fun hh => ?_, fun hh => ?_⟩
    · dsimp only; rw [hedge, hedge, if_neg hsec, Nat.zero_add, Nat.zero_add]; exact b1.1 i hi
    · dsimp only; rw [hedge, hedge, if_neg hsec, hlam i hi, show secNum (states.get a) = 0 from if_neg hsec, Nat.zero_add, Nat.zero_add]; exact b1.2 i hi
    · obtain ⟨d1, d2⟩ := (secondMember_iff_deuteron ha).2 hh
      dsimp only; rw [hedge, hedge, if_neg hsec, Nat.zero_add, Nat.zero_add, (hbd d2).2.1]; exact b2 d2
    · have hndc : ¬ IsDeuteronChannel (states.get a) := by
        intro hdc
        rcases (secondMember_iff_deuteron ha).1.1 hdc with hS | ⟨_, hS⟩
        · exact hh hS
        · exact hsec hS
      dsimp only; rw [hedge, if_neg hsec, Nat.zero_add]; exact b3 hndc

end

end TicTac
end
