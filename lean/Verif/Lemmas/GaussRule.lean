import Verif.Spec.GaussRule
import Verif.Lemmas.GaussNewton
import Verif.Lemmas.Sonin
/-! The exact Gauss-Legendre rule: its nodes are the Legendre zeros, and it is unique. -/
noncomputable section
namespace TicTac
open Polynomial

/-- The rule with nodes `-cos θ_{k+1}` and the textbook weights. -/
def exactRule (N : Nat) (th : Nat → ℝ) : List (ℝ × ℝ) :=
  (List.range N).map fun k => (-Real.cos (th (k + 1)), gaussW (Real.cos (th (k + 1))) ((derivative (Spec.legendre N)).eval (Real.cos (th (k + 1)))))

theorem gaussW_pos (t pp : ℝ) (ht : t ^ 2 < 1) (hp : pp ≠ 0) : 0 < gaussW t pp := by
  unfold gaussW
  have : 0 < pp * pp := mul_self_pos.2 hp
  rw [mul_assoc, ← pow_two t]
  have : 0 < 1 - t ^ 2 := by linarith
  positivity

theorem cos_sq_lt (y : ℝ) (h0 : 0 < y) (h1 : y < Real.pi) : Real.cos y ^ 2 < 1 := by
  have := Real.sin_pos_of_pos_of_lt_pi h0 h1
  have := Real.sin_sq_add_cos_sq y
  nlinarith

theorem exactRule_isGauss (N : Nat) (th : Nat → ℝ) (Z : LegZeros N (Real.pi / ((N : ℝ) + 1/2)) th) : Spec.IsGauss N (exactRule N th) := by
  have hmem : ∀ k < N, 0 < th (k + 1) ∧ th (k + 1) < Real.pi := fun k hk => Z.mem (k + 1) (by omega) (by omega)
  have hlt : ∀ j k, j < k → k < N → -Real.cos (th (j + 1)) < -Real.cos (th (k + 1)) := by
    intro j k hjk hk
    have a := hmem j (by omega)
    have b := hmem k hk
    exact neg_lt_neg (Real.cos_lt_cos_of_nonneg_of_le_pi a.1.le b.2.le (Z.lt _ _ (by omega) (by omega) (by omega)))
  refine ⟨by simp [exactRule], ?_, ?_, ?_, ?_⟩
  · unfold exactRule
    rw [List.map_map]
    rw [List.pairwise_map]
    refine List.Pairwise.imp_of_mem ?_ (List.pairwise_lt_range (n := N))
    intro a b ha hb hab
    exact hlt a b hab (List.mem_range.1 hb)
  · intro x hx
    obtain ⟨k, hk, rfl⟩ := List.mem_map.1 hx
    have := hmem k (List.mem_range.1 hk)
    have h2 := cos_sq_lt _ this.1 this.2
    constructor <;> · dsimp only; nlinarith
  · intro x hx
    obtain ⟨k, hk, rfl⟩ := List.mem_map.1 hx
    have hk' := List.mem_range.1 hk
    have := hmem k hk'
    exact gaussW_pos _ _ (cos_sq_lt _ this.1 this.2) (legendre_deriv_ne N _ (Z.root (k + 1) (by omega) (by omega)))
  · intro f hf
    classical
    have hinj : Set.InjOn (fun k => -Real.cos (th (k + 1))) (Finset.range N : Set Nat) := by
      intro a ha b hb hab
      simp only [Finset.coe_range, Set.mem_Iio] at ha hb
      rcases lt_trichotomy a b with h | h | h
      · exact absurd hab (hlt a b h hb).ne
      · exact h
      · exact absurd hab (hlt b a h ha).ne'
    have hg := gauss_exact N ((Finset.range N).image fun k => -Real.cos (th (k + 1))) (by
      intro x hx
      obtain ⟨k, hk, rfl⟩ := Finset.mem_image.1 hx
      rw [legendre_eval_neg, Z.root (k + 1) (by omega) (by have := Finset.mem_range.1 hk; omega), mul_zero])
      (by rw [Finset.card_image_of_injOn hinj, Finset.card_range]) f hf
    rw [Finset.sum_image hinj] at hg
    unfold pint at hg
    rw [hg]
    unfold exactRule
    rw [List.map_map, ← List.sum_toFinset _ List.nodup_range, List.toFinset_range]
    refine Finset.sum_congr rfl fun k _ => ?_
    simp only [Function.comp, gaussW]
    rw [legendre_deriv_neg_sq, neg_sq, mul_assoc, ← pow_two, ← pow_two]

/-! ### Uniqueness -/

private theorem sum_single (l : List (ℝ × ℝ)) (hnd : (l.map Prod.fst).Nodup) (p : ℝ × ℝ) (hp : p ∈ l) (F : ℝ → ℝ)
    (hF : ∀ x ∈ l.map Prod.fst, x ≠ p.1 → F x = 0) : (l.map fun xw => xw.2 * F xw.1).sum = p.2 * F p.1 := by
  induction l with
  | nil => simp at hp
  | cons a l ih =>
    simp only [List.map_cons, List.nodup_cons] at hnd
    simp only [List.map_cons, List.sum_cons]
    rcases List.mem_cons.1 hp with rfl | hp'
    · have : (l.map fun xw => xw.2 * F xw.1).sum = 0 := by
        apply List.sum_eq_zero
        intro y hy
        obtain ⟨b, hb, rfl⟩ := List.mem_map.1 hy
        have hb' : b.1 ∈ l.map Prod.fst := List.mem_map_of_mem hb
        rw [hF b.1 (by simp only [List.map_cons]; exact List.mem_cons_of_mem _ hb') (fun h => hnd.1 (h ▸ hb')), mul_zero]
      rw [this, add_zero]
    · have hb' : p.1 ∈ l.map Prod.fst := List.mem_map_of_mem hp'
      rw [ih hnd.2 hp' (fun x hx => hF x (by simp only [List.map_cons]; exact List.mem_cons_of_mem _ hx)),
        hF a.1 (by simp) (fun h => hnd.1 (h ▸ hb')), mul_zero, zero_add]

private theorem prod_degree (s : Finset ℝ) : (∏ y ∈ s, (X - C y)).natDegree = s.card := by
  rw [natDegree_prod_of_monic _ _ (fun y _ => monic_X_sub_C y)]
  simp

private theorem nodes_roots (N : Nat) (l : List (ℝ × ℝ)) (G : Spec.IsGauss N l) : ∀ p ∈ l, (Spec.legendre N).eval p.1 = 0 := by
  classical
  intro p hp
  have hnd : (l.map Prod.fst).Nodup := G.sorted.imp ne_of_lt
  have hcard : (l.map Prod.fst).toFinset.card = N := by rw [List.toFinset_card_of_nodup hnd, List.length_map, G.length]
  have hpm : p.1 ∈ (l.map Prod.fst).toFinset := List.mem_toFinset.2 (List.mem_map_of_mem hp)
  set q : ℝ[X] := ∏ y ∈ (l.map Prod.fst).toFinset.erase p.1, (X - C y) with hq
  have hqd : q.natDegree = N - 1 := by rw [hq, prod_degree, Finset.card_erase_of_mem hpm, hcard]
  have hN : 0 < N := by rw [← hcard]; exact Finset.card_pos.2 ⟨_, hpm⟩
  have hfd : (Spec.legendre N * q).natDegree < 2 * N := by
    have := natDegree_mul_le (p := Spec.legendre N) (q := q)
    have := legendre_natDegree_le N
    omega
  have h1 := G.exact _ hfd
  rw [sum_single l hnd p hp (fun x => (Spec.legendre N * q).eval x) (by
    intro x hx hne
    have : q.eval x = 0 := by
      rw [hq, eval_prod]
      exact Finset.prod_eq_zero (Finset.mem_erase.2 ⟨hne, List.mem_toFinset.2 hx⟩) (by simp)
    rw [eval_mul, this, mul_zero])] at h1
  have h2 : pint (Spec.legendre N * q) = 0 := legendre_orth_deg N q (Or.inr (by omega))
  unfold pint at h2
  rw [h2, eval_mul] at h1
  have hq0 : q.eval p.1 ≠ 0 := by
    rw [hq, eval_prod]
    refine Finset.prod_ne_zero_iff.2 fun y hy => ?_
    simp only [eval_sub, eval_X, eval_C]
    exact sub_ne_zero.2 (Finset.ne_of_mem_erase hy).symm
  have hw := (G.positive p hp).ne'
  rcases mul_eq_zero.1 h1 with h | h
  · exact absurd h hw
  · rcases mul_eq_zero.1 h with h | h
    · exact h
    · exact absurd h hq0

/-- There is only one Gauss-Legendre rule. -/
theorem isGauss_unique (N : Nat) (l g : List (ℝ × ℝ)) (L : Spec.IsGauss N l) (G : Spec.IsGauss N g) : l = g := by
  classical
  have hset : ∀ l, Spec.IsGauss N l → (l.map Prod.fst).toFinset = (Spec.legendre N).roots.toFinset := by
    intro l L
    refine Finset.eq_of_subset_of_card_le ?_ ?_
    · intro x hx
      obtain ⟨p, hp, rfl⟩ := List.mem_map.1 (List.mem_toFinset.1 hx)
      rw [Multiset.mem_toFinset, mem_roots (legendre_ne_zero N)]
      exact nodes_roots N l L p hp
    · rw [List.toFinset_card_of_nodup (L.sorted.imp ne_of_lt), List.length_map, L.length]
      exact (Multiset.toFinset_card_le _).trans (by rw [(legendre_card_roots N).1])
  have hnodes : l.map Prod.fst = g.map Prod.fst := by
    have hp : (l.map Prod.fst).Perm (g.map Prod.fst) := by
      refine (List.perm_ext_iff_of_nodup (L.sorted.imp ne_of_lt) (G.sorted.imp ne_of_lt)).2 fun x => ?_
      rw [← List.mem_toFinset, ← List.mem_toFinset, hset l L, hset g G]
    exact hp.eq_of_pairwise (le := (· < ·)) (fun a b _ _ h1 h2 => absurd (h1.trans h2) (lt_irrefl _)) L.sorted G.sorted
  have hnd : (l.map Prod.fst).Nodup := L.sorted.imp ne_of_lt
  have hw : ∀ p ∈ l, ∀ q ∈ g, p.1 = q.1 → p.2 = q.2 := by
    intro p hp q hq hpq
    have hpm : p.1 ∈ (l.map Prod.fst).toFinset := List.mem_toFinset.2 (List.mem_map_of_mem hp)
    have hcard : (l.map Prod.fst).toFinset.card = N := by rw [List.toFinset_card_of_nodup hnd, List.length_map, L.length]
    have hN : 0 < N := by rw [← hcard]; exact Finset.card_pos.2 ⟨_, hpm⟩
    set f : ℝ[X] := ∏ y ∈ (l.map Prod.fst).toFinset.erase p.1, (X - C y) with hf
    have hfd : f.natDegree < 2 * N := by rw [hf, prod_degree, Finset.card_erase_of_mem hpm, hcard]; omega
    have hz : ∀ x ∈ l.map Prod.fst, x ≠ p.1 → f.eval x = 0 := by
      intro x hx hne
      rw [hf, eval_prod]
      exact Finset.prod_eq_zero (Finset.mem_erase.2 ⟨hne, List.mem_toFinset.2 hx⟩) (by simp)
    have h1 := L.exact f hfd
    have h2 := G.exact f hfd
    rw [sum_single l hnd p hp (fun x => f.eval x) hz] at h1
    rw [sum_single g (by rw [← hnodes]; exact hnd) q hq (fun x => f.eval x) (by rw [← hnodes, ← hpq]; exact hz)] at h2
    have hf0 : f.eval p.1 ≠ 0 := by
      rw [hf, eval_prod]
      refine Finset.prod_ne_zero_iff.2 fun y hy => ?_
      simp only [eval_sub, eval_X, eval_C]
      exact sub_ne_zero.2 (Finset.ne_of_mem_erase hy).symm
    rw [← hpq] at h2
    exact mul_right_cancel₀ hf0 (h1.trans h2.symm)
  refine List.ext_getElem (by rw [L.length, G.length]) fun i hi hi' => ?_
  have e : (l[i]).1 = (g[i]).1 := by
    have := congrArg (fun z => z[i]?) hnodes
    simp only [List.getElem?_map, List.getElem?_eq_getElem hi, List.getElem?_eq_getElem hi', Option.map_some, Option.some.injEq] at this
    exact this
  exact Prod.ext e (hw _ (List.getElem_mem hi) _ (List.getElem_mem hi') e)

end TicTac
