import Verif.Lemmas.Run4
import Mathlib.Data.Fin.Tuple.Sort
import Mathlib.LinearAlgebra.Matrix.Determinant.Basic
import Mathlib.LinearAlgebra.Matrix.NonsingularInverse
/-! Uniqueness of spectra and eigenvectors: what two runs of the program on different machines have in common. -/
noncomputable section
namespace TicTac
open Spec
open Classical

/-- The overlap of two orthonormal eigenbases. -/
theorem overlap_of {dim : Nat} {H H' : Nat → Nat → ℝ} (hHH : ∀ r < dim, ∀ c < dim, H r c = H' r c) {lam lam' : Nat → ℝ}
    {vec vec' : Nat → Nat → ℝ} (h : ChannelSolved dim H lam vec) (h' : ChannelSolved dim H' lam' vec') :
    ∃ W : Matrix (Fin dim) (Fin dim) ℝ, W.det ≠ 0 ∧ W.transpose * W = 1 ∧ (∀ i j : Fin dim, lam i * W i j = W i j * lam' j) ∧
      ∀ r k : Fin dim, vec' r k = ∑ i : Fin dim, vec r i * W i k := by
  let V : Matrix (Fin dim) (Fin dim) ℝ := fun r k => vec r k
  let V' : Matrix (Fin dim) (Fin dim) ℝ := fun r k => vec' r k
  let Hm : Matrix (Fin dim) (Fin dim) ℝ := fun r c => H r c
  have o1 : V.transpose * V = 1 := by
    ext k l
    rw [Matrix.mul_apply, Matrix.one_apply]
    have := h.2.2 k k.2 l l.2
    rw [Finset.sum_range] at this
    refine this.trans ?_
    simp only [Fin.ext_iff]
  have o2 : V'.transpose * V' = 1 := by
    ext k l
    rw [Matrix.mul_apply, Matrix.one_apply]
    have := h'.2.2 k k.2 l l.2
    rw [Finset.sum_range] at this
    refine this.trans ?_
    simp only [Fin.ext_iff]
  have o1' : V * V.transpose = 1 := mul_eq_one_comm.1 o1
  have e1 : Hm * V = V * Matrix.diagonal fun k : Fin dim => lam k := by
    ext r k
    rw [Matrix.mul_diagonal, Matrix.mul_apply]
    have := h.2.1 k k.2 r r.2
    rw [Finset.sum_range] at this
    simp only [V, Hm]
    rw [this, mul_comm]
  have e2 : Hm * V' = V' * Matrix.diagonal fun k : Fin dim => lam' k := by
    ext r k
    rw [Matrix.mul_diagonal, Matrix.mul_apply]
    have := h'.2.1 k k.2 r r.2
    rw [Finset.sum_range] at this
    simp only [V', Hm]
    rw [mul_comm, ← this]
    exact Finset.sum_congr rfl fun c _ => by rw [hHH r r.2 c c.2]
  have hWW : (V.transpose * V').transpose * (V.transpose * V') = 1 := by
    rw [Matrix.transpose_mul, Matrix.transpose_transpose, Matrix.mul_assoc, ← Matrix.mul_assoc V, o1', Matrix.one_mul, o2]
  have hcomm : (Matrix.diagonal fun k : Fin dim => lam k) * (V.transpose * V') = (V.transpose * V') * Matrix.diagonal fun k : Fin dim => lam' k := by
    have : Hm = V * (Matrix.diagonal fun k : Fin dim => lam k) * V.transpose := by
      rw [← e1, Matrix.mul_assoc, o1', Matrix.mul_one]
    rw [Matrix.mul_assoc V.transpose, ← e2, this, Matrix.mul_assoc, Matrix.mul_assoc, ← Matrix.mul_assoc V.transpose V, o1, Matrix.one_mul]
  refine ⟨V.transpose * V', ?_, hWW, ?_, ?_⟩
  · intro h0
    have := congrArg Matrix.det hWW
    rw [Matrix.det_mul, h0, mul_zero, Matrix.det_one] at this
    exact zero_ne_one this
  · intro i j
    have := congrFun (congrFun hcomm i) j
    rwa [Matrix.diagonal_mul, Matrix.mul_diagonal] at this
  · intro r k
    have : V' = V * (V.transpose * V') := by rw [← Matrix.mul_assoc, o1', Matrix.one_mul]
    have := congrFun (congrFun this r) k
    rw [Matrix.mul_apply] at this
    exact this

/-- The spectrum of a channel is determined by its Hamiltonian. -/
theorem spectrum_unique {dim : Nat} {H H' : Nat → Nat → ℝ} (hHH : ∀ r < dim, ∀ c < dim, H r c = H' r c) {lam lam' : Nat → ℝ}
    {vec vec' : Nat → Nat → ℝ} (h : ChannelSolved dim H lam vec) (h' : ChannelSolved dim H' lam' vec') (k : Nat) (hk : k < dim) :
    lam k = lam' k := by
  obtain ⟨W, hdet, -, hcomm, -⟩ := overlap_of hHH h h'
  rw [Matrix.det_apply] at hdet
  obtain ⟨σ, -, hσ⟩ := Finset.exists_ne_zero_of_sum_ne_zero hdet
  have hne : ∀ i, W (σ i) i ≠ 0 := by
    intro i h0
    have hz : (∏ i, W (σ i) i) = 0 := Finset.prod_eq_zero (f := fun i => W (σ i) i) (Finset.mem_univ i) h0
    exact hσ (by rw [hz, smul_zero])
  have hp : ∀ i : Fin dim, lam (σ i) = lam' i := by
    intro i
    have := hcomm (σ i) i
    rw [mul_comm] at this
    exact mul_left_cancel₀ (hne i) this
  have hm : Monotone ((fun i : Fin dim => lam i) ∘ (1 : Equiv.Perm (Fin dim))) := by
    intro i j hij; exact h.1 i j hij j.2
  have hm' : Monotone ((fun i : Fin dim => lam i) ∘ σ) := by
    intro i j hij
    show lam (σ i) ≤ lam (σ j)
    rw [hp, hp]; exact h'.1 i j hij j.2
  have := congrFun (Tuple.unique_monotone hm hm') ⟨k, hk⟩
  simp only [Function.comp] at this
  rw [hp] at this
  exact this

/-- Without degeneracy the eigenvectors are determined up to sign. -/
theorem vectors_unique {dim : Nat} {H H' : Nat → Nat → ℝ} (hHH : ∀ r < dim, ∀ c < dim, H r c = H' r c) {lam lam' : Nat → ℝ}
    {vec vec' : Nat → Nat → ℝ} (h : ChannelSolved dim H lam vec) (h' : ChannelSolved dim H' lam' vec')
    (hs : ∀ i j, i < j → j < dim → lam i < lam j) :
    ∃ ε : Nat → ℝ, (∀ k, ε k = 1 ∨ ε k = -1) ∧ ∀ k < dim, ∀ r < dim, vec' r k = ε k * vec r k := by
  obtain ⟨W, -, hWW, hcomm, hv⟩ := overlap_of hHH h h'
  have hoff : ∀ i j : Fin dim, i ≠ j → W i j = 0 := by
    intro i j hij
    have := hcomm i j
    rw [← spectrum_unique hHH h h' j j.2, mul_comm] at this
    by_contra hne
    have he := mul_left_cancel₀ hne this
    rcases lt_or_gt_of_ne (fun e => hij (Fin.ext e)) with hl | hl
    · exact absurd he (hs _ _ hl j.2).ne
    · exact absurd he (hs _ _ hl i.2).ne'
  have hdiag : ∀ k : Fin dim, W k k * W k k = 1 := by
    intro k
    have := congrFun (congrFun hWW k) k
    rw [Matrix.mul_apply, Matrix.one_apply_eq, Finset.sum_eq_single k] at this
    · exact this
    · intro i _ hik; rw [Matrix.transpose_apply, hoff i k hik, zero_mul]
    · intro hh; exact absurd (Finset.mem_univ k) hh
  refine ⟨fun k => if hk : k < dim then W ⟨k, hk⟩ ⟨k, hk⟩ else 1, fun k => ?_, fun k hk r hr => ?_⟩
  · dsimp only
    split
    · exact mul_self_eq_one_iff.1 (hdiag _)
    · exact Or.inl rfl
  · have := hv ⟨r, hr⟩ ⟨k, hk⟩
    rw [Finset.sum_eq_single (⟨k, hk⟩ : Fin dim)] at this
    · dsimp only at this ⊢
      rw [this, dif_pos hk, mul_comm]
    · intro i _ hik; rw [hoff i _ hik, mul_zero]
    · intro hh; exact absurd (Finset.mem_univ _) hh

/-- The boundaries depend on the energies only. -/
theorem swpBoundaries_congr (N : Nat) (hN : 2 ≤ N) (b chn : Bool) {ev ev' : Nat → ℝ} (h : ∀ k < chnDim N b, ev k = ev' k) (e e' : Nat → ℝ)
    (i : Nat) (hi : i < eLen N b) : swpBoundaries N b chn ev e i = swpBoundaries N b chn ev' e' i := by
  have hmid : ∀ (f f' : Nat → ℝ), (∀ k < N, f k = f' k) → ∀ i < N, midB f i = midB f' i := by
    intro f f' hf i hi
    unfold midB
    rw [hf i hi, hf (i - 1) (by omega)]
  have hdim : N ≤ chnDim N b := by unfold chnDim; split <;> omega
  have h1 : ∀ k < N, ev k = ev' k := fun k hk => h k (by omega)
  obtain ⟨a1, a2⟩ := swpBoundaries_eq N hN b chn ev e
  obtain ⟨c1, c2⟩ := swpBoundaries_eq N hN b chn ev' e'
  by_cases hiN : i ≤ N
  · rw [a1 i hiN, c1 i hiN, h1 0 (by omega), h1 (N - 1) (by omega), hmid _ _ h1 (N - 1) (by omega), hmid _ _ h1 (N - 2) (by omega)]
    by_cases he : i = N
    · simp only [he, if_true]
    · rw [hmid _ _ h1 i (by omega)]
  · have hb : b = true := by
      by_contra hb
      rw [eLen, if_neg hb] at hi; omega
    rw [eLen, if_pos hb] at hi
    have h2 : ∀ k < N, (fun k => ev (k + N)) k = (fun k => ev' (k + N)) k := fun k hk => h (k + N) (by rw [chnDim, if_pos hb]; omega)
    obtain ⟨m, rfl⟩ : ∃ m, i = N + 1 + m := ⟨i - (N + 1), by omega⟩
    rw [a2 hb m (by omega), c2 hb m (by omega), h (N - 1 + N) (by rw [chnDim, if_pos hb]; omega), hmid _ _ h2 (N - 1) (by omega), hmid _ _ h2 (N - 2) (by omega)]
    by_cases he : m = N
    · simp only [he, if_true]
    · rw [hmid _ _ h2 m (by omega)]

/-- Energies in the order of storage. -/
def ordered (N : Nat) (b : Bool) (lam : Nat → ℝ) (k : Nat) : ℝ := if b then (if k < N then lam (2 * k) else lam (2 * (k - N) + 1)) else lam k

section
variable {p : PWParams} (ht : p.tensor = true) (hv : ValidTruncation p) {w : PWSpace} (hw : constructPW p = some w) {g : PotGrid}
  (hb : ∀ i < g.Np, g.pWP i < g.pWP (i + 1)) {pot : PotModel} (hH : Hermitian pot)
include ht hv hw hb hH

/-- The stored boundaries of a channel are a function of its spectrum. -/
theorem edges_of_slot {M : Bool → Int → ℝ} (hM : HoldsPotential p g pot w.states M) {diag : Diag} (hd : LapackContract diag) {garbage : Nat → ℝ}
    {C0 : Bool → Int → ℝ} {Eb0 : ℝ} {st : SwpState} (hrun : makeSwpStates p g.Np g.pWP M diag garbage C0 Eb0 w.states = .ok st) (hN : 2 ≤ g.Np)
    (s : PWState) (hs : s ∈ w.states) {b : Bool} {n : Int} (hsl : slotOf p s = some (b, n)) {lam : Nat → ℝ} {vec : Nat → Nat → ℝ}
    (hlam : ChannelSolved (chnDim g.Np b)
        (hamiltonian g.Np g.pWP fun r c => M b (n * (chnDim g.Np b * chnDim g.Np b : Nat) + (r * chnDim g.Np b + c : Nat))) lam vec)
    (i : Nat) (hi : i < eLen g.Np b) :
    st.e b (n * (eLen g.Np b : Nat) + i) = swpBoundaries g.Np b (decide (IsDeuteronChannel s)) (ordered g.Np b lam) (fun _ => 0) i := by
  obtain ⟨jobs, hj1, hnd, hjs, -, huniq⟩ := swp_job_of_state p ht hv w hw
  unfold makeSwpStates at hrun
  rw [hj1] at hrun
  simp only at hrun
  obtain ⟨j, hj, hslj, h3⟩ := hjs s hs
  rw [hsl] at hslj
  have hslot : j.slot = (b, n) := (Option.some.inj hslj).symm
  obtain ⟨hrun1, -, -⟩ := swpRun_ok jobs _ _ hrun hnd
  obtain ⟨-, ⟨e0, hee⟩, -⟩ := hrun1 j hj
  have hdd := hd (chnDim g.Np j.slot.1) (jobHam g.Np g.pWP M j)
  have hHam := jobHam_eq g.Np g.pWP hb M j (by rw [hslot]; exact pot_symm ht hv hw hM hH s hs b n hsl)
  have hsolved : ChannelSolved (chnDim g.Np b) (symOf (chnDim g.Np b) (jobHam g.Np g.pWP M j)) (jobEig g.Np g.pWP M diag j).1
      (fun r k => (jobEig g.Np g.pWP M diag j).2 (r * chnDim g.Np b + k)) := by
    rw [hslot] at hdd
    have : jobEig g.Np g.pWP M diag j = diag (chnDim g.Np b) (jobHam g.Np g.pWP M j) := by unfold jobEig; rw [hslot]
    rw [this]
    exact ⟨hdd.1, hdd.2.1, hdd.2.2⟩
  rw [hslot] at hHam hee
  have hsame := spectrum_unique (fun r hr c hc => hHam r c hr hc) hsolved hlam
  have hchn : chn3S1 j = decide (IsDeuteronChannel s) := by
    by_cases hde : IsDeuteronChannel s
    · rw [decide_eq_true hde]; exact h3.2 hde
    · rw [decide_eq_false hde]
      by_contra hne; exact hde (h3.1 (by simpa using hne))
  dsimp only at hee
  rw [hee i hi, hchn]
  refine swpBoundaries_congr g.Np hN b _ (fun k hk => ?_) _ _ i hi
  unfold jobOrd ordered
  rw [hslot]
  cases b with
  | false => simp only [Bool.false_eq_true, if_false]; exact hsame k hk
  | true =>
    simp only [if_true, chnDim] at hk ⊢
    split
    · rename_i hkN
      rw [(reorder_blocks g.Np garbage _ _ k hkN).1]
      exact hsame _ (by simp only [chnDim, if_true]; omega)
    · rename_i hkN
      have := (reorder_blocks g.Np garbage (jobEig g.Np g.pWP M diag j).1 (jobEig g.Np g.pWP M diag j).2 (k - g.Np) (by omega)).2
      rw [show k - g.Np + g.Np = k by omega] at this
      rw [this]
      exact hsame _ (by simp only [chnDim, if_true]; omega)

/-- Two runs see the same two-nucleon Hamiltonian. -/
theorem ham_same {M M' : Bool → Int → ℝ} (hM : HoldsPotential p g pot w.states M) (hM' : HoldsPotential p g pot w.states M')
    (s : PWState) (hs : s ∈ w.states) {b : Bool} {n : Int} (hsl : slotOf p s = some (b, n)) :
    ∀ r < chnDim g.Np b, ∀ c < chnDim g.Np b,
      hamiltonian g.Np g.pWP (fun r c => M b (n * (chnDim g.Np b * chnDim g.Np b : Nat) + (r * chnDim g.Np b + c : Nat))) r c =
      hamiltonian g.Np g.pWP (fun r c => M' b (n * (chnDim g.Np b * chnDim g.Np b : Nat) + (r * chnDim g.Np b + c : Nat))) r c := by
  intro r hr c hc
  have hch := channel_of_state hv hw s.twoJ3 s.P
  set L := w.states.filter fun x => decide (x.twoJ3 = s.twoJ3 ∧ x.P = s.P) with hL
  have hsub : ∀ x ∈ L, x ∈ w.states := fun x hx => (List.mem_filter.1 hx).1
  have hsL : s ∈ L := List.mem_filter.2 ⟨hs, by simp⟩
  obtain ⟨a, ha, i, hi⟩ := row_cover ht hch s hsL hsl g.Np r hr
  obtain ⟨d, hd, j, hj⟩ := row_cover ht hch s hsL hsl g.Np c hc
  have had := pairConnected_trans (pairConnected_symm ha) hd
  have aa := IsChannel.allowed hch (List.get_mem L a)
  have as' := IsChannel.allowed hch hsL
  have e1 : slotOf p (L.get a) = some (b, n) := by rw [← slot_connected ht as' aa ha, hsl]
  obtain ⟨b1, n1, f1, v1⟩ := hM _ (hsub _ (List.get_mem L a)) _ (hsub _ (List.get_mem L d)) had.1
  obtain ⟨b2, n2, f2, v2⟩ := hM' _ (hsub _ (List.get_mem L a)) _ (hsub _ (List.get_mem L d)) had.1
  rw [e1] at f1 f2
  cases f1; cases f2
  have w1 := v1 i i.2 j j.2
  have w2 := v2 i i.2 j j.2
  rw [hi, hj] at w1 w2
  unfold hamiltonian
  dsimp only
  rw [w1, w2]

omit hH in
/-- Without degeneracy the spectrum of each two-nucleon channel of the block is strictly increasing. -/
theorem strict_of_nondeg (hH : Hermitian pot) {M : Bool → Int → ℝ} (hM : HoldsPotential p g pot w.states M) {diag : Diag} (hd : LapackContract diag) {garbage : Nat → ℝ}
    {C0 : Bool → Int → ℝ} {Eb0 : ℝ} {st : SwpState} (hrun : makeSwpStates p g.Np g.pWP M diag garbage C0 Eb0 w.states = .ok st)
    {J P : Int} {states : List PWState} (h : IsChannel p J P states) (hsub : ∀ s ∈ states, s ∈ w.states)
    (hnd : Nondegenerate states g.Np (fun a i => energyOf p g M st.C (states.get a) i)) (a : Fin states.length) {b : Bool} {n : Int}
    (s1 : slotOf p (states.get a) = some (b, n)) {lam : Nat → ℝ} {vec : Nat → Nat → ℝ}
    (hl : ChannelSolved (chnDim g.Np b)
        (hamiltonian g.Np g.pWP fun r c => M b (n * (chnDim g.Np b * chnDim g.Np b : Nat) + (r * chnDim g.Np b + c : Nat))) lam vec) :
    ∀ i j, i < j → j < chnDim g.Np b → lam i < lam j := by
  obtain ⟨lam0, hl0, hen, -⟩ := energies_of_slot ht hv hw hb hH hM hd hrun _ (hsub _ (List.get_mem states a)) s1
  have hsame := spectrum_unique (fun _ _ _ _ => rfl) hl0 hl
  have hcov : ∀ k < chnDim g.Np b, ∃ c : Fin states.length, PairConnected (states.get a) (states.get c) ∧ ∃ t < g.Np,
      eigNum b (states.get c) t = k ∧ energyOf p g M st.C (states.get c) t = lam k := by
    intro k hk
    have hpos : swpPos g.Np b k < chnDim g.Np b := by
      clear * - hk
      unfold swpPos chnDim at *
      cases b
      · simpa using hk
      · simp only [if_true] at *; split_ifs <;> omega
    obtain ⟨c, hc, t, hct⟩ := row_cover ht h _ (List.get_mem states a) s1 g.Np _ hpos
    obtain ⟨b', n', t1, t2, t3, t4⟩ := slot_info ht h a c hc
    rw [s1] at t1; cases t1
    obtain ⟨l1, l2⟩ := eigNum_pos g.Np b (states.get c) t4 t t.2
    have : eigNum b (states.get c) t = k := by
      rw [hct] at l2
      clear * - l1 l2 hk
      generalize eigNum b (states.get c) t = m at *
      unfold swpPos chnDim at *
      cases b
      · simpa using l2
      · simp only [if_true] at *
        split_ifs at l2 <;> omega
    exact ⟨c, hc, t, t.2, this, by rw [hen _ t2 t4 t t.2, this, hsame k hk]⟩
  intro i j hij hj
  refine lt_of_le_of_ne (hl.1 i j hij.le hj) ?_
  obtain ⟨c, hc, t, htt, e1, e2⟩ := hcov i (by omega)
  obtain ⟨d, hd', u, huu, f1, f2⟩ := hcov j hj
  rw [← e2, ← f2]
  intro he
  obtain ⟨rfl, rfl⟩ := hnd.1 c d t htt u huu (pairConnected_trans (pairConnected_symm hc) hd') he
  omega

section two
variable {M M' : Bool → Int → ℝ} (hM : HoldsPotential p g pot w.states M) (hM' : HoldsPotential p g pot w.states M')
  {diag diag' : Diag} (hd : LapackContract diag) (hd' : LapackContract diag') {garbage garbage' : Nat → ℝ} {C0 C0' : Bool → Int → ℝ} {Eb0 : ℝ}
  {st st' : SwpState} (hrun : makeSwpStates p g.Np g.pWP M diag garbage C0 Eb0 w.states = .ok st)
  (hrun' : makeSwpStates p g.Np g.pWP M' diag' garbage' C0' Eb0 w.states = .ok st')
include hM hM' hd hd' hrun hrun'

/-- Two runs store the same bin boundaries. -/
theorem edges_same (hN : 2 ≤ g.Np) (s : PWState) (hs : s ∈ w.states) {b : Bool} {n : Int} (hsl : slotOf p s = some (b, n)) (i : Nat) (hi : i < eLen g.Np b) :
    st.e b (n * (eLen g.Np b : Nat) + i) = st'.e b (n * (eLen g.Np b : Nat) + i) := by
  obtain ⟨lam, hl, -⟩ := energies_of_slot ht hv hw hb hH hM hd hrun s hs hsl
  have hl' : ChannelSolved (chnDim g.Np b)
        (hamiltonian g.Np g.pWP fun r c => M' b (n * (chnDim g.Np b * chnDim g.Np b : Nat) + (r * chnDim g.Np b + c : Nat))) lam
        (fun r k => st.C b (n * (chnDim g.Np b * chnDim g.Np b : Nat) + (r * chnDim g.Np b + swpPos g.Np b k : Nat))) := by
    refine ⟨hl.1, fun k hk r hr => ?_, hl.2.2⟩
    rw [← hl.2.1 k hk r hr]
    exact Finset.sum_congr rfl fun c hc => by rw [ham_same ht hv hw hb hH hM hM' s hs hsl r hr c (Finset.mem_range.1 hc)]
  rw [edges_of_slot ht hv hw hb hH hM hd hrun hN s hs hsl hl i hi, edges_of_slot ht hv hw hb hH hM' hd' hrun' hN s hs hsl hl' i hi]

/-- Two runs find the same deuteron energy. -/
theorem eb_same (hN : 0 < g.Np) : st.Eb = st'.Eb := by
  by_cases hex : ∃ s ∈ w.states, IsDeuteronChannel s
  · obtain ⟨s, hs, hde⟩ := hex
    obtain ⟨w', hw', hmem⟩ := C01_basis_exact p hv
    rw [hw] at hw'; cases hw'
    obtain ⟨jobs, -, -, hjs, -, -⟩ := swp_job_of_state p ht hv w hw
    obtain ⟨j, -, hsl, -⟩ := hjs s hs
    obtain ⟨lam, hl, -, hbd, -⟩ := energies_of_slot ht hv hw hb hH hM hd hrun s hs (b := j.slot.1) (n := j.slot.2) hsl
    obtain ⟨lam', hl', -, hbd', -⟩ := energies_of_slot ht hv hw hb hH hM' hd' hrun' s hs (b := j.slot.1) (n := j.slot.2) hsl
    rw [(hbd hde).2.1, (hbd' hde).2.1]
    exact spectrum_unique (ham_same ht hv hw hb hH hM hM' s hs hsl) hl hl' 0 (by unfold chnDim; split <;> omega)
  · obtain ⟨jobs, hj1, hnd, -, hdj, -⟩ := swp_job_of_state p ht hv w hw
    unfold makeSwpStates at hrun hrun'
    rw [hj1] at hrun hrun'
    simp only at hrun hrun'
    have hno : ∀ j ∈ jobs, chn3S1 j = false := by
      intro j hj
      by_contra hne
      obtain ⟨m1, -, m3⟩ := hdj j hj (by simpa using hne)
      exact hex ⟨_, m1, m3⟩
    rw [(swpRun_ok jobs _ _ hrun hnd).2.1 hno, (swpRun_ok jobs _ _ hrun' hnd).2.1 hno]

/-- Two runs store the same wave packets up to signs, one sign for each slot and column. -/
theorem vectors_same {J P : Int} {states : List PWState} (h : IsChannel p J P states) (hsub : ∀ s ∈ states, s ∈ w.states)
    (hnd : Nondegenerate states g.Np (fun a i => energyOf p g M st.C (states.get a) i)) (b : Bool) (n : Int) :
    ∃ ε : Nat → ℝ, (∀ k, ε k = 1 ∨ ε k = -1) ∧ ((∃ a : Fin states.length, slotOf p (states.get a) = some (b, n)) →
      ∀ k < chnDim g.Np b, ∀ r < chnDim g.Np b,
        st'.C b (n * (chnDim g.Np b * chnDim g.Np b : Nat) + (r * chnDim g.Np b + swpPos g.Np b k : Nat)) =
          ε k * st.C b (n * (chnDim g.Np b * chnDim g.Np b : Nat) + (r * chnDim g.Np b + swpPos g.Np b k : Nat))) := by
  by_cases hex : ∃ a : Fin states.length, slotOf p (states.get a) = some (b, n)
  · obtain ⟨a, hsl⟩ := hex
    have hs := hsub _ (List.get_mem states a)
    obtain ⟨lam, hl, -⟩ := energies_of_slot ht hv hw hb hH hM hd hrun _ hs hsl
    obtain ⟨lam', hl', -⟩ := energies_of_slot ht hv hw hb hH hM' hd' hrun' _ hs hsl
    obtain ⟨ε, e1, e2⟩ := vectors_unique (ham_same ht hv hw hb hH hM hM' _ hs hsl) hl hl'
      (strict_of_nondeg ht hv hw hb hH hM hd hrun h hsub hnd a hsl hl)
    exact ⟨ε, e1, fun _ => e2⟩
  · exact ⟨fun _ => 1, fun _ => Or.inl rfl, fun hh => absurd hh hex⟩

/-- The matrix of the wave packets of the second run is that of the first with the signs of some columns changed; the deuteron has the same
sign in all states of the block. -/
theorem basis_same {J P : Int} {states : List PWState} (h : IsChannel p J P states) (hsub : ∀ s ∈ states, s ∈ w.states)
    (hnd : Nondegenerate states g.Np (fun a i => energyOf p g M st.C (states.get a) i)) (Nq : Nat) :
    ∃ D : Idx states.length Nq g.Np → ℝ, (∀ y, D y = 1 ∨ D y = -1) ∧
      twoBody p states Nq g.Np st'.C = twoBody p states Nq g.Np st.C * Matrix.diagonal D ∧
      ∀ y z : Idx states.length Nq g.Np, IsDeuteronS (states.get y.1) → IsDeuteronS (states.get z.1) → (y.2.2 : Nat) = 0 → (z.2.2 : Nat) = 0 → D y = D z := by
  choose ε e1 e2 using vectors_same ht hv hw hb hH hM hM' hd hd' hrun hrun' h hsub hnd
  have hself : ∀ s : PWState, PairConnected s s := fun s => ⟨⟨rfl, rfl, Or.inl rfl⟩, rfl, rfl⟩
  let D : Idx states.length Nq g.Np → ℝ := fun y => match slotOf p (states.get y.1) with
    | some (b, n) => ε b n (eigNum b (states.get y.1) y.2.2)
    | none => 1
  refine ⟨D, fun y => ?_, ?_, ?_⟩
  · dsimp only [D]
    split
    · exact e1 _ _ _
    · exact Or.inl rfl
  · ext x y
    rw [Matrix.mul_diagonal]
    by_cases hc : x.2.1 = y.2.1 ∧ PairConnected (states.get x.1) (states.get y.1)
    · obtain ⟨b, n, s1, s2, s3, s4⟩ := slot_info ht h x.1 y.1 hc.2
      rw [twoBody_apply ht h _ x y hc.1 hc.2 s1, twoBody_apply ht h _ x y hc.1 hc.2 s1]
      obtain ⟨l1, l2⟩ := eigNum_pos g.Np b (states.get y.1) s4 y.2.2 y.2.2.2
      have := e2 b n ⟨y.1, s2⟩ _ l1 _ (chanPos_lt ht h s3 x.2.2)
      rw [l2] at this
      have hD : D y = ε b n (eigNum b (states.get y.1) y.2.2) := by
        dsimp only [D]; rw [s2]
      rw [this, hD, mul_comm]
    · rw [twoBody_off _ x y hc, twoBody_off _ x y hc, zero_mul]
  · intro y z hy hz h0 h0'
    have ay := IsChannel.allowed h (List.get_mem states y.1)
    have az := IsChannel.allowed h (List.get_mem states z.1)
    have hslot : slotOf p (states.get y.1) = slotOf p (states.get z.1) := by
      rw [slotOf_tensor ht ay.facts, slotOf_tensor ht az.facts]
      rw [hy.1, hy.2.1, hy.2.2, hz.1, hz.2.1, hz.2.2]
    have ny := ((secondMember_iff_deuteron ay).2 hy).1
    have nz := ((secondMember_iff_deuteron az).2 hz).1
    have hnum : ∀ b, eigNum b (states.get y.1) y.2.2 = eigNum b (states.get z.1) z.2.2 := by
      intro b
      unfold eigNum secNum
      rw [if_neg ny, if_neg nz, h0, h0']
    dsimp only [D]
    rw [hslot]
    split
    · exact hnum _ ▸ rfl
    · rfl

end two
end

end TicTac
end
