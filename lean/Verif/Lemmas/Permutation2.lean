import Verif.Lemmas.Permutation
import Verif.Lemmas.Kernel3
import Verif.Props.PWStates
/-! The arrays read by the P123 loops hold what they should. -/
noncomputable section
namespace TicTac
open Spec Classical

theorem phi_read (i : P123Input) (init : Nat → ℝ × ℝ) (ws : List (Nat × (ℝ × ℝ))) (hp : ws.Perm (phiWrites i)) {qp pp f : Nat}
    (h1 : qp < i.Nq) (h2 : pp < i.Np) (h3 : f < i.Nphi) : writeAll init ws (idxPhi i.Np i.Nphi qp pp f) =
      gaussPoint i.P i.Nphi i.z (phiLower (i.cell qp pp)) (phiUpper (i.cell qp pp)) f := by
  apply writeAll_eq
  · rw [hp.mem_iff]
    unfold phiWrites
    simp only [List.mem_flatMap, List.mem_map, List.mem_range]
    exact ⟨qp, h1, pp, h2, f, h3, rfl⟩
  · intro w hw he
    rw [hp.mem_iff] at hw
    unfold phiWrites at hw
    simp only [List.mem_flatMap, List.mem_map, List.mem_range] at hw
    obtain ⟨a, ha, b, hb, c, hc, rfl⟩ := hw
    unfold idxPhi at he
    obtain ⟨e1, rfl⟩ := radix_inj hc h3 he
    obtain ⟨rfl, rfl⟩ := radix_inj hb h2 e1
    rfl

theorem overlap_read (i : P123Input) (init : Nat → Bool) (ws : List (Nat × Bool)) (hp : ws.Perm (overlapWrites i)) {qp pp q p : Nat}
    (h1 : qp < i.Nq) (h2 : pp < i.Np) (h3 : q < i.Nq) (h4 : p < i.Np) : writeAll init ws (idxOverlap i.Np i.Nq qp pp q p) =
      decide (wpOverlap (i.cell q p) (i.cell qp pp) i.xs
        ((List.range i.Nphi).map fun (f : Nat) =>
          let e := gaussPoint i.P i.Nphi i.z (phiLower (i.cell qp pp)) (phiUpper (i.cell qp pp)) f
          (Real.sin e.1, Real.cos e.1, e.2))) := by
  have hidx : ∀ a b c d, idxOverlap i.Np i.Nq a b c d = ((a * i.Np + b) * i.Nq + c) * i.Np + d := by
    intro a b c d; unfold idxOverlap; ring
  apply writeAll_eq
  · rw [hp.mem_iff]
    unfold overlapWrites
    simp only [List.mem_flatMap, List.mem_map, List.mem_range]
    exact ⟨qp, h1, pp, h2, q, h3, p, h4, rfl⟩
  · intro w hw he
    rw [hp.mem_iff] at hw
    unfold overlapWrites at hw
    simp only [List.mem_flatMap, List.mem_map, List.mem_range] at hw
    obtain ⟨a, ha, b, hb, c, hc, d, hd, rfl⟩ := hw
    dsimp only at he
    rw [hidx, hidx] at he
    obtain ⟨e1, rfl⟩ := radix_inj hd h4 he
    obtain ⟨e2, rfl⟩ := radix_inj hc h3 e1
    obtain ⟨rfl, rfl⟩ := radix_inj hb h2 e2
    rfl

theorem plm1_read {g : Gsl} (hg : GslContract g) (i : P123Input) (init : Nat → ℝ) (n : Nat) {k l m : Nat} (hk : k < i.Nx) (hm : m ≤ l) (hl : l ≤ n) :
    writeAll init (plmWrites1 g i n) (k * g.plmLen n + gslIdx l m) = g.sph l m (i.x k) := by
  apply writeAll_eq
  · unfold plmWrites1
    simp only [List.mem_flatMap, List.mem_map, List.mem_range]
    exact ⟨k, hk, gslIdx l m, hg.plm_len n l m hm hl, by rw [hg.plm_chunk n l m _ hm hl]⟩
  · intro w hw he
    unfold plmWrites1 at hw
    simp only [List.mem_flatMap, List.mem_map, List.mem_range] at hw
    obtain ⟨a, ha, o, ho, rfl⟩ := hw
    obtain ⟨rfl, rfl⟩ := radix_inj ho (hg.plm_len n l m hm hl) he
    exact hg.plm_chunk n l m _ hm hl

theorem plm23_read {g : Gsl} (hg : GslContract g) (i : P123Input) (phi : Nat → ℝ × ℝ) (cosine : ℝ → ℝ → ℝ → ℝ) (init : Nat → ℝ) (n : Nat)
    {qp pp f k l m : Nat} (h1 : qp < i.Nq) (h2 : pp < i.Np) (h3 : f < i.Nphi) (hk : k < i.Nx) (hm : m ≤ l) (hl : l ≤ n) :
    writeAll init (plmWrites23 g i phi cosine n)
      ((qp * i.Np * i.Nphi * i.Nx + pp * i.Nphi * i.Nx) * g.plmLen n + (f * i.Nx + k) * g.plmLen n + gslIdx l m) =
      g.sph l m (cosine (Real.sin (phi (idxPhi i.Np i.Nphi qp pp f)).1) (Real.cos (phi (idxPhi i.Np i.Nphi qp pp f)).1) (i.x k)) := by
  have hidx : ∀ a b c d, idxPlm i.Np i.Nphi i.Nx a b c d = ((a * i.Np + b) * i.Nphi + c) * i.Nx + d := by
    intro a b c d; unfold idxPlm; ring
  have hpos : (qp * i.Np * i.Nphi * i.Nx + pp * i.Nphi * i.Nx) * g.plmLen n + (f * i.Nx + k) * g.plmLen n + gslIdx l m =
      idxPlm i.Np i.Nphi i.Nx qp pp f k * g.plmLen n + gslIdx l m := by
    unfold idxPlm; ring
  rw [hpos]
  apply writeAll_eq
  · unfold plmWrites23
    simp only [List.mem_flatMap, List.mem_map, List.mem_range]
    exact ⟨qp, h1, pp, h2, f, h3, k, hk, gslIdx l m, hg.plm_len n l m hm hl, by rw [hg.plm_chunk n l m _ hm hl]⟩
  · intro w hw he
    unfold plmWrites23 at hw
    simp only [List.mem_flatMap, List.mem_map, List.mem_range] at hw
    obtain ⟨a, ha, b, hb, c, hc, d, hd, o, ho, rfl⟩ := hw
    dsimp only at he
    rw [hidx, hidx] at he
    obtain ⟨e0, rfl⟩ := radix_inj ho (hg.plm_len n l m hm hl) he
    obtain ⟨e1, rfl⟩ := radix_inj hd hk e0
    obtain ⟨e2, rfl⟩ := radix_inj hc h3 e1
    obtain ⟨rfl, rfl⟩ := radix_inj hb h2 e2
    exact hg.plm_chunk n l m _ hm hl

theorem maxQ_ge (f : PWState → Int) (states : List PWState) : 0 ≤ maxQ f states ∧ ∀ s ∈ states, f s ≤ maxQ f states := by
  unfold maxQ
  induction states using List.reverseRecOn with
  | nil => simp
  | append_singleton l s ih =>
    rw [List.foldl_append]
    simp only [List.foldl_cons, List.foldl_nil]
    obtain ⟨h0, h1⟩ := ih
    split_ifs with h
    · refine ⟨by omega, fun t ht => ?_⟩
      rcases List.mem_append.1 ht with ht | ht
      · have := h1 t ht; omega
      · rw [List.mem_singleton] at ht; subst ht; exact le_refl _
    · refine ⟨h0, fun t ht => ?_⟩
      rcases List.mem_append.1 ht with ht | ht
      · exact h1 t ht
      · rw [List.mem_singleton] at ht; subst ht; omega

/-- `Atilde_store` holds the recoupling coefficients, and zero between different total isospins. -/
theorem atildeStore_read {g : Gsl} (hg : GslContract g) (states : List PWState) (hgood : ∀ s ∈ states, GoodState s) (twoJ : Int)
    (hJ : ∀ s ∈ states, s.twoJ3 = twoJ) (init : Nat → ℝ) (order : List (Nat × Nat × Nat × Nat × Nat × Nat)) (jmax : Nat) (hj : 6 ≤ jmax)
    (hord : order.Perm (sixjTuples jmax)) (junk : Nat → ℝ) {a b : Nat} (ha : a < states.length) (hb : b < states.length) {L : Nat} (hL : L ≤ LmaxOf states) :
    atildeStore g (sixjTable g.sixJ jmax init order) jmax states twoJ junk (a * states.length * (LmaxOf states + 1) + b * (LmaxOf states + 1) + L) =
      recoupling g states[a] states[b] L := by
  set n := states.length with hn
  set M := LmaxOf states + 1 with hM
  have hidx : ∀ c d e, idxAtilde n (LmaxOf states) c d e = (c * n + d) * M + e := by intro c d e; unfold idxAtilde; rw [hM]; ring
  have hpos : a * n * M + b * M + L = (a * n + b) * M + L := by ring
  have ga := hgood _ (List.getElem_mem ha)
  have gb := hgood _ (List.getElem_mem hb)
  have hval : states[a].twoT3 = states[b].twoT3 →
      atilde g (sixjTable g.sixJ jmax init order) jmax states[a] states[b] L twoJ states[a].twoT3 = recoupling g states[a] states[b] L := by
    intro hT
    rw [← hJ _ (List.getElem_mem ha)]
    have b1 := ga.S0; have b2 := ga.S1; have b3 := gb.S0; have b4 := gb.S1
    have b5 := ga.T0; have b6 := ga.T1; have b7 := gb.T0; have b8 := gb.T1; have b9 := ga.T3
    refine recoupling_eq hg ga hT _ _ ?_ ?_ L
    · intro twoS hS
      exact (C53_sixj_lookup g.sixJ jmax init order hord 1 1 _ 1 twoS _ (by omega) (by omega) (by omega) (by omega) (by omega) (by omega)).2
    · exact (C53_sixj_lookup g.sixJ jmax init order hord 1 1 _ 1 _ _ (by omega) (by omega) (by omega) (by omega) (by omega) (by omega)).2
  unfold atildeStore
  rw [← hn, ← hM, hpos]
  by_cases hT : states[a].twoT3 = states[b].twoT3
  · rw [← hval hT]
    apply writeAll_eq
    · rw [List.mem_flatMap]
      refine ⟨(states[a], a), List.mem_zipIdx_iff_getElem?.2 (List.getElem?_eq_getElem ha), ?_⟩
      rw [List.mem_flatMap]
      refine ⟨(states[b], b), List.mem_zipIdx_iff_getElem?.2 (List.getElem?_eq_getElem hb), ?_⟩
      rw [if_pos hT, List.mem_map]
      exact ⟨L, List.mem_range.2 (by omega), by rw [hidx]⟩
    · rintro w hw he
      rw [List.mem_flatMap] at hw
      obtain ⟨⟨s, c⟩, hc, hw⟩ := hw
      rw [List.mem_flatMap] at hw
      obtain ⟨⟨t, d⟩, hd, hw⟩ := hw
      obtain ⟨c1, c2⟩ := List.getElem?_eq_some_iff.1 (List.mem_zipIdx_iff_getElem?.1 hc)
      obtain ⟨d1, d2⟩ := List.getElem?_eq_some_iff.1 (List.mem_zipIdx_iff_getElem?.1 hd)
      split_ifs at hw with hT'
      · obtain ⟨e, he1, rfl⟩ := List.mem_map.1 hw
        rw [List.mem_range] at he1
        dsimp only at he
        rw [hidx] at he
        obtain ⟨e1, rfl⟩ := radix_inj (by omega) (by omega) he
        obtain ⟨rfl, rfl⟩ := radix_inj d1 hb e1
        dsimp only at c2 d2 ⊢
        rw [c2, d2]
      · exact absurd hw List.not_mem_nil
  · rw [show recoupling g states[a] states[b] L = 0 by unfold recoupling; rw [if_neg hT]]
    rw [writeAll_frame]
    · rw [if_pos]
      have := radix_lt (radix_lt ha hb) (show L < M by omega)
      exact this
    · rintro w hw he
      rw [List.mem_flatMap] at hw
      obtain ⟨⟨s, c⟩, hc, hw⟩ := hw
      rw [List.mem_flatMap] at hw
      obtain ⟨⟨t, d⟩, hd, hw⟩ := hw
      obtain ⟨c1, c2⟩ := List.getElem?_eq_some_iff.1 (List.mem_zipIdx_iff_getElem?.1 hc)
      obtain ⟨d1, d2⟩ := List.getElem?_eq_some_iff.1 (List.mem_zipIdx_iff_getElem?.1 hd)
      split_ifs at hw with hT'
      · obtain ⟨e, he1, rfl⟩ := List.mem_map.1 hw
        rw [List.mem_range] at he1
        dsimp only at he
        rw [hidx] at he
        obtain ⟨e1, rfl⟩ := radix_inj (by omega) (by omega) he
        obtain ⟨rfl, rfl⟩ := radix_inj d1 hb e1
        dsimp only at c2 d2
        rw [c2, d2] at hT
        exact hT hT'
      · exact absurd hw List.not_mem_nil

end TicTac
end
