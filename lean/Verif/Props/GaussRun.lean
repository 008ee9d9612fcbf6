import Verif.Model.GaussRun
import Verif.Lemmas.GaussRule
import Verif.Lemmas.Main
/-! C121: `gauss` stops after at most seven Newton passes per root, for every number of points, and leaves the
Gauss-Legendre rule. -/
noncomputable section
namespace TicTac
open Polynomial

/-! ### What is known about one root -/

/-- What the loop for root `i` left: final iterate `t` and derivative `pp`. -/
structure RootOut (N : Nat) (th : Nat → ℝ) (eps : ℝ) (i : Nat) (t pp : ℝ) : Prop where
  lo : Real.cos (th i) ≤ t
  hi : t ≤ gaussStart N i
  near : t - Real.cos (th i) ≤ 72/25 * eps ^ 2 * ((N : ℝ) + 1/2) ^ 2
  wnear : |gaussW t pp - gaussW (Real.cos (th i)) ((derivative (Spec.legendre N)).eval (Real.cos (th i)))| ≤
      16/5 * eps * ((N : ℝ) + 1/2) ^ 2 * gaussW (Real.cos (th i)) ((derivative (Spec.legendre N)).eval (Real.cos (th i)))
  wpos : 0 < gaussW t pp

theorem gaussStart_middle (N i : Nat) (h2 : 2 * i = N + 1) : gaussStart N i = 0 := by
  rw [gaussStart_eq]
  have hm := LegZeros.step_mul N
  have : (2 : ℝ) * i = N + 1 := by exact_mod_cast h2
  have e : ((i : ℝ) - 1/4) * (Real.pi / ((N : ℝ) + 1/2)) = Real.pi / 2 := by
    have : (i : ℝ) - 1/4 = ((N : ℝ) + 1/2) / 2 := by linarith
    rw [this]
    linarith
  rw [e, Real.cos_pi_div_two]

theorem middle_zero (N : Nat) (th : Nat → ℝ) (Z : LegZeros N (Real.pi / ((N : ℝ) + 1/2)) th) (i : Nat) (h1 : 1 ≤ i) (h2 : 2 * i = N + 1) :
    Real.cos (th i) = 0 := by
  have := Z.symm i h1 (by omega)
  rw [show N + 1 - i = i by omega] at this
  rw [show th i = Real.pi / 2 by linarith, Real.cos_pi_div_two]

theorem root_out (N : Nat) (hN : 1 ≤ N) (th : Nat → ℝ) (Z : LegZeros N (Real.pi / ((N : ℝ) + 1/2)) th) (eps : ℝ) (he : (4/9 : ℝ) ^ 64 / 2 < eps)
    (heM : eps * ((N : ℝ) + 1/2) ^ 2 ≤ 1) (fuel : Nat) (hf : 7 ≤ fuel) (i : Nat) (h1 : 1 ≤ i) (hi : i ≤ (N + 1) / 2) :
    ∃ t t1 pp, gaussRun N eps fuel i = some (t, t1, pp) ∧ RootOut N th eps i t pp := by
  have heps : 0 < eps := lt_trans (by positivity) he
  obtain ⟨F, rfl⟩ : ∃ F, fuel = F + 1 := ⟨fuel - 1, by omega⟩
  rcases Nat.lt_or_ge (2 * i) (N + 1) with hlt | hge
  · obtain ⟨s, hs, W⟩ := zone_exists N th Z i h1 hlt
    have hw := W.wide
    have hM := W.M0
    have hx1 := W.x1
    have hr0 := W.r0
    have hrx := W.rx
    have hpow : (4/9 : ℝ) ^ (2 ^ F) / 2 < eps := by
      refine lt_of_le_of_lt ?_ he
      have : (4/9 : ℝ) ^ (2 ^ F) ≤ (4/9) ^ 64 := pow_le_pow_of_le_one (by norm_num) (by norm_num) (by
        calc 64 = 2 ^ 6 := by norm_num
          _ ≤ 2 ^ F := Nat.pow_le_pow_right (by norm_num) (by omega))
      linarith
    have hstart : eps ≤ 1 - gaussStart N i := by
      generalize gaussStart N i = x at *
      have hM2 : 0 < ((N : ℝ) + 1/2) ^ 2 := by positivity
      have h3 : 9/8 ≤ (1 - x) * ((N : ℝ) + 1/2) ^ 2 := by
        have h4 : (1 - x ^ 2) ≤ 2 * (1 - x) := by nlinarith
        have := mul_le_mul_of_nonneg_left h4 hM2.le
        linarith
      by_contra hc
      push Not at hc
      have := mul_lt_mul_of_pos_right hc hM2
      linarith
    obtain ⟨k, t, t1, pp, hrun, inv, hd⟩ := gauss_run_stops hN hs i W eps F hpow hstart
    obtain ⟨a, b, c, d, e⟩ := gauss_exit hs W eps k t t1 pp inv hd
    obtain ⟨w1, w2, -⟩ := gauss_exit_weight hs W eps k t t1 pp inv hd
    exact ⟨t, t1, pp, hrun, a, b.trans inv.hi, e, w1, w2⟩
  · have h2 : 2 * i = N + 1 := by omega
    have hst := gaussStart_middle N i h2
    have hr := middle_zero N th Z i h1 h2
    have hroot := Z.root i h1 (by omega)
    rw [hr] at hroot
    obtain ⟨p1, p2⟩ := gaussPP_eq N hN 0 (by norm_num)
    have hnew : gaussNewton N 0 = 0 := by unfold gaussNewton; rw [p2, hroot]; simp
    have hdne := legendre_deriv_ne N 0 hroot
    have hwp := gaussW_pos 0 ((derivative (Spec.legendre N)).eval 0) (by norm_num) hdne
    have heps1 : eps ≤ 1 := by
      have : (1 : ℝ) ≤ ((N : ℝ) + 1/2) ^ 2 := by
        have : (1 : ℝ) ≤ N := by exact_mod_cast hN
        nlinarith
      nlinarith
    refine ⟨0, 0, (derivative (Spec.legendre N)).eval 0, ?_, ?_⟩
    · unfold gaussRun gaussWhile
      rw [hst, if_pos (by norm_num; exact heps1)]
      show gaussWhile N eps F (gaussNewton N 0, 0, gaussPP N 0) = _
      rw [hnew, p1]
      unfold gaussWhile
      rw [if_neg (by simpa using heps)]
    · refine ⟨by rw [hr], by rw [hst], by rw [hr]; simp; positivity, ?_, hwp⟩
      rw [hr, sub_self, abs_zero]
      positivity

/-! ### The stored rule -/

theorem stored_node (N : Nat) (th : Nat → ℝ) (Z : LegZeros N (Real.pi / ((N : ℝ) + 1/2)) th) (eps : ℝ) (t pp : Nat → ℝ)
    (H : ∀ i, 1 ≤ i → i ≤ (N + 1) / 2 → RootOut N th eps i (t i) (pp i)) (x0 w0 : Nat → ℝ) (k : Nat) (hk : k < N) :
    (gaussNodes N t x0 k = if k < (N + 1) / 2 then -t (k + 1) else t (N - k)) ∧
      gaussWeights N (fun i => gaussW (t i) (pp i)) w0 k = gaussW (t (if k < (N + 1) / 2 then k + 1 else N - k)) (pp (if k < (N + 1) / 2 then k + 1 else N - k)) := by
  have hx := gaussStore N t x0 ((N + 1) / 2) le_rfl (-1) k hk
  have hw := gaussStore N (fun i => gaussW (t i) (pp i)) w0 ((N + 1) / 2) le_rfl 1 k hk
  simp only [neg_one_mul] at hx
  simp only [one_mul] at hw
  have ex : gaussNodes N t x0 k = ((List.range ((N + 1) / 2)).foldl (fun (x : Nat → ℝ) k =>
    Function.update (Function.update x k (-(t (k + 1)))) (N - (k + 1)) (t (k + 1))) x0) k := rfl
  have ew : gaussWeights N (fun i => gaussW (t i) (pp i)) w0 k = ((List.range ((N + 1) / 2)).foldl (fun (x : Nat → ℝ) k =>
    Function.update (Function.update x k (gaussW (t (k + 1)) (pp (k + 1)))) (N - (k + 1)) (gaussW (t (k + 1)) (pp (k + 1)))) w0) k := rfl
  rw [← ex] at hx
  rw [← ew] at hw
  by_cases hlt : k < (N + 1) / 2
  · simp only [if_pos hlt]
    refine ⟨?_, ?_⟩
    · rcases hx.1 hlt with h | ⟨h2, h⟩
      · exact h
      · have h3 := H (k + 1) (by omega) (by omega)
        have hmid : 2 * (k + 1) = N + 1 := by omega
        have := h3.lo
        have := h3.hi
        rw [gaussStart_middle N _ hmid] at this
        have hr := middle_zero N th Z (k + 1) (by omega) hmid
        rw [h]
        linarith
    · rcases hw.1 hlt with h | h
      · exact h
      · exact h.2
  · simp only [if_neg hlt]
    exact ⟨hx.2 (by omega), hw.2 (by omega)⟩

theorem exactRule_get (N : Nat) (th : Nat → ℝ) (Z : LegZeros N (Real.pi / ((N : ℝ) + 1/2)) th) (k : Nat) (hk : k < N) (hge : ¬ k < (N + 1) / 2) :
    -Real.cos (th (k + 1)) = Real.cos (th (N - k)) ∧
      gaussW (Real.cos (th (k + 1))) ((derivative (Spec.legendre N)).eval (Real.cos (th (k + 1)))) =
      gaussW (Real.cos (th (N - k))) ((derivative (Spec.legendre N)).eval (Real.cos (th (N - k)))) := by
  have e := Z.symm (k + 1) (by omega) (by omega)
  rw [show N + 1 - (k + 1) = N - k by omega] at e
  rw [e, Real.cos_pi_sub]
  refine ⟨rfl, ?_⟩
  unfold gaussW
  have h := legendre_deriv_neg_sq N (Real.cos (th (k + 1)))
  rw [mul_assoc, mul_assoc, ← pow_two, ← pow_two, ← pow_two, ← pow_two, h, neg_sq]

theorem stored_near (N : Nat) (th : Nat → ℝ) (Z : LegZeros N (Real.pi / ((N : ℝ) + 1/2)) th) (eps : ℝ) (t pp : Nat → ℝ)
    (H : ∀ i, 1 ≤ i → i ≤ (N + 1) / 2 → RootOut N th eps i (t i) (pp i)) (x0 w0 : Nat → ℝ) :
    Spec.RuleNear (72/25 * eps ^ 2 * ((N : ℝ) + 1/2) ^ 2) (16/5 * eps * ((N : ℝ) + 1/2) ^ 2) (gaussRule N t pp x0 w0) (exactRule N th) := by
  unfold Spec.RuleNear gaussRule exactRule
  rw [List.forall₂_map_left_iff, List.forall₂_map_right_iff, List.forall₂_same]
  intro k hk
  have hk' := List.mem_range.1 hk
  obtain ⟨a, b⟩ := stored_node N th Z eps t pp H x0 w0 k hk'
  dsimp only
  rw [a, b]
  by_cases hlt : k < (N + 1) / 2
  · simp only [if_pos hlt]
    have h := H (k + 1) (by omega) (by omega)
    refine ⟨?_, h.wnear⟩
    rw [show -t (k + 1) - -Real.cos (th (k + 1)) = -(t (k + 1) - Real.cos (th (k + 1))) by ring, abs_neg,
      abs_of_nonneg (by linarith [h.lo])]
    exact h.near
  · simp only [if_neg hlt]
    have h := H (N - k) (by omega) (by omega)
    obtain ⟨c, d⟩ := exactRule_get N th Z k hk' hlt
    rw [c, d]
    refine ⟨?_, h.wnear⟩
    rw [abs_of_nonneg (by linarith [h.lo])]
    exact h.near

/-- The final iterates decrease with the root's number. -/
theorem out_anti (N : Nat) (th : Nat → ℝ) (Z : LegZeros N (Real.pi / ((N : ℝ) + 1/2)) th) (eps : ℝ) (t pp : Nat → ℝ)
    (H : ∀ i, 1 ≤ i → i ≤ (N + 1) / 2 → RootOut N th eps i (t i) (pp i)) (i j : Nat) (h1 : 1 ≤ i) (hij : i < j) (hj : j ≤ (N + 1) / 2) : t j < t i := by
  have a := (H i h1 (by omega)).lo
  have b := (H j (by omega) hj).hi
  rw [gaussStart_eq] at b
  have hl := (Z.loc i h1 (by omega)).2
  have hhp := LegZeros.step_pos N
  have hmul := LegZeros.step_mul N
  have hm := Z.mem i h1 (by omega)
  have hij' : (i : ℝ) + 1 ≤ j := by exact_mod_cast hij
  have hjN : (j : ℝ) ≤ N := by exact_mod_cast (show j ≤ N by omega)
  generalize Real.pi / ((N : ℝ) + 1/2) = h at *
  have h3 : th i < ((j : ℝ) - 1/4) * h := by
    have := mul_le_mul_of_nonneg_right (show (i : ℝ) + 1/4 ≤ (j : ℝ) - 1/4 by linarith) hhp.le
    linarith
  have h4 : ((j : ℝ) - 1/4) * h ≤ Real.pi := by
    rw [← hmul]; exact mul_le_mul_of_nonneg_right (by linarith) hhp.le
  have := Real.cos_lt_cos_of_nonneg_of_le_pi hm.1.le h4 h3
  linarith

theorem out_range (N : Nat) (th : Nat → ℝ) (Z : LegZeros N (Real.pi / ((N : ℝ) + 1/2)) th) (eps : ℝ) (t pp : Nat → ℝ)
    (H : ∀ i, 1 ≤ i → i ≤ (N + 1) / 2 → RootOut N th eps i (t i) (pp i)) (i : Nat) (h1 : 1 ≤ i) (hi : i ≤ (N + 1) / 2) :
    0 ≤ t i ∧ t i < 1 ∧ (2 * i < N + 1 → 0 < t i) := by
  have a := H i h1 hi
  rcases Nat.lt_or_ge (2 * i) (N + 1) with hlt | hge
  · obtain ⟨s, hs, W⟩ := zone_exists N th Z i h1 hlt
    have := W.x1; have := W.r0; have := a.lo; have := a.hi
    exact ⟨by linarith, by linarith, fun _ => by linarith⟩
  · have h2 : 2 * i = N + 1 := by omega
    have h3 := a.lo
    have h4 := a.hi
    rw [gaussStart_middle N i h2] at h4
    rw [middle_zero N th Z i h1 h2] at h3
    exact ⟨h3, by linarith, fun h => absurd h (by omega)⟩

theorem stored_sorted (N : Nat) (th : Nat → ℝ) (Z : LegZeros N (Real.pi / ((N : ℝ) + 1/2)) th) (eps : ℝ) (t pp : Nat → ℝ)
    (H : ∀ i, 1 ≤ i → i ≤ (N + 1) / 2 → RootOut N th eps i (t i) (pp i)) (x0 w0 : Nat → ℝ) :
    ((gaussRule N t pp x0 w0).map Prod.fst).Pairwise (· < ·) ∧ ∀ p ∈ gaussRule N t pp x0 w0, -1 < p.1 ∧ p.1 < 1 ∧ 0 < p.2 := by
  have hR := out_range N th Z eps t pp H
  constructor
  · unfold gaussRule
    rw [List.map_map, List.pairwise_map]
    refine List.Pairwise.imp_of_mem ?_ (List.pairwise_lt_range (n := N))
    intro a b ha hb hab
    have hb' := List.mem_range.1 hb
    simp only [Function.comp]
    rw [(stored_node N th Z eps t pp H x0 w0 a (by omega)).1, (stored_node N th Z eps t pp H x0 w0 b hb').1]
    by_cases h2 : b < (N + 1) / 2
    · rw [if_pos h2, if_pos (by omega)]
      have := out_anti N th Z eps t pp H (a + 1) (b + 1) (by omega) (by omega) (by omega)
      linarith
    · rw [if_neg h2]
      by_cases h3 : a < (N + 1) / 2
      · rw [if_pos h3]
        have r1 := hR (a + 1) (by omega) (by omega)
        have r2 := hR (N - b) (by omega) (by omega)
        have := r2.2.2 (by omega)
        linarith
      · rw [if_neg h3]
        exact out_anti N th Z eps t pp H (N - b) (N - a) (by omega) (by omega) (by omega)
  · intro p hp
    obtain ⟨k, hk, rfl⟩ := List.mem_map.1 hp
    have hk' := List.mem_range.1 hk
    obtain ⟨a, b⟩ := stored_node N th Z eps t pp H x0 w0 k hk'
    dsimp only
    rw [a, b]
    by_cases h3 : k < (N + 1) / 2
    · simp only [if_pos h3]
      have r1 := hR (k + 1) (by omega) (by omega)
      exact ⟨by linarith, by linarith, (H (k + 1) (by omega) (by omega)).wpos⟩
    · simp only [if_neg h3]
      have r1 := hR (N - k) (by omega) (by omega)
      exact ⟨by linarith, by linarith, (H (N - k) (by omega) (by omega)).wpos⟩

/-- The whole routine, for any tolerance in range. -/
theorem gaussFill_eq (N : Nat) (hN : 1 ≤ N) (th : Nat → ℝ) (Z : LegZeros N (Real.pi / ((N : ℝ) + 1/2)) th) (eps : ℝ) (he : (4/9 : ℝ) ^ 64 / 2 < eps)
    (heM : eps * ((N : ℝ) + 1/2) ^ 2 ≤ 1) (fuel : Nat) (hf : 7 ≤ fuel) :
    ∃ t pp : Nat → ℝ, (∀ i, 1 ≤ i → i ≤ (N + 1) / 2 → RootOut N th eps i (t i) (pp i)) ∧
      ∀ x0 w0, gaussFill N eps fuel x0 w0 = some (gaussRule N t pp x0 w0) := by
  classical
  have H := root_out N hN th Z eps he heM fuel hf
  set s : List (ℝ × ℝ × ℝ) := (List.range ((N + 1) / 2)).map fun k => ((gaussRun N eps fuel (k + 1)).getD (0, 0, 0)) with hs
  refine ⟨fun i => (s.getD (i - 1) (0, 0, 0)).1, fun i => (s.getD (i - 1) (0, 0, 0)).2.2, ?_, ?_⟩
  · intro i h1 hi
    obtain ⟨t, t1, pp, hr, ho⟩ := H i h1 hi
    have hlen : i - 1 < s.length := by rw [hs]; simp; omega
    have e : s.getD (i - 1) (0, 0, 0) = (t, t1, pp) := by
      rw [List.getD_eq_getElem _ _ hlen]
      simp only [hs, List.getElem_map, List.getElem_range]
      rw [show i - 1 + 1 = i by omega, hr]
      rfl
    beta_reduce
    rw [e]
    exact ho
  · intro x0 w0
    unfold gaussFill
    rw [mapM_some_of_forall (fun k => gaussRun N eps fuel (k + 1)) (fun k => ((gaussRun N eps fuel (k + 1)).getD (0, 0, 0))) _ (by
      intro k hk
      obtain ⟨t, t1, pp, hr, -⟩ := H (k + 1) (by omega) (by have := List.mem_range.1 hk; omega)
      rw [hr]
      rfl)]
    rfl
/-! ### Independence of the bound on passes -/

theorem gaussWhile_mono (N : Nat) (eps : ℝ) (f : Nat) : ∀ (g : Nat) (s r : ℝ × ℝ × ℝ), f ≤ g → gaussWhile N eps f s = some r → gaussWhile N eps g s = some r := by
  induction f with
  | zero =>
    rintro g ⟨a, b, c⟩ r hg h
    unfold gaussWhile at h ⊢
    split at h
    · cases h
    · rename_i hn
      rw [if_neg hn]
      exact h
  | succ f ih =>
    rintro g ⟨a, b, c⟩ r hg h
    obtain ⟨g, rfl⟩ : ∃ g', g = g' + 1 := ⟨g - 1, by omega⟩
    unfold gaussWhile at h ⊢
    split at h
    · rename_i hp
      rw [if_pos hp]
      exact ih g _ _ (by omega) h
    · rename_i hn
      rw [if_neg hn]
      exact h

theorem gaussFill_stable (N : Nat) (hN : 1 ≤ N) (eps : ℝ) (he : (4/9 : ℝ) ^ 64 / 2 < eps) (heM : eps * ((N : ℝ) + 1/2) ^ 2 ≤ 1) :
    ∃ (th t pp : Nat → ℝ), LegZeros N (Real.pi / ((N : ℝ) + 1/2)) th ∧ (∀ i, 1 ≤ i → i ≤ (N + 1) / 2 → RootOut N th eps i (t i) (pp i)) ∧
      ∀ fuel x0 w0, 7 ≤ fuel → gaussFill N eps fuel x0 w0 = some (gaussRule N t pp (fun _ => 0) (fun _ => 0)) := by
  obtain ⟨th, Z⟩ := legZeros_exist N
  obtain ⟨t, pp, H, hfill⟩ := gaussFill_eq N hN th Z eps he heM 7 le_rfl
  refine ⟨th, t, pp, Z, H, fun fuel x0 w0 hf => ?_⟩
  have hrule : gaussRule N t pp x0 w0 = gaussRule N t pp (fun _ => 0) (fun _ => 0) := by
    unfold gaussRule
    refine List.map_congr_left fun k hk => ?_
    have hk' := List.mem_range.1 hk
    obtain ⟨a, b⟩ := stored_node N th Z eps t pp H x0 w0 k hk'
    obtain ⟨c, d⟩ := stored_node N th Z eps t pp H (fun _ => 0) (fun _ => 0) k hk'
    rw [a, b, c, d]
  have hrun : (List.range ((N + 1) / 2)).mapM (fun k => gaussRun N eps fuel (k + 1)) = (List.range ((N + 1) / 2)).mapM (fun k => gaussRun N eps 7 (k + 1)) := by
    have e : ∀ k ∈ List.range ((N + 1) / 2), gaussRun N eps fuel (k + 1) = some ((gaussRun N eps 7 (k + 1)).getD (0, 0, 0)) ∧
        gaussRun N eps 7 (k + 1) = some ((gaussRun N eps 7 (k + 1)).getD (0, 0, 0)) := by
      intro k hk
      obtain ⟨t, t1, pp, hr, -⟩ := root_out N hN th Z eps he heM 7 le_rfl (k + 1) (by omega) (by have := List.mem_range.1 hk; omega)
      rw [hr]
      exact ⟨gaussWhile_mono N eps 7 fuel _ _ hf hr, rfl⟩
    rw [mapM_some_of_forall _ _ _ (fun k hk => (e k hk).1), mapM_some_of_forall _ _ _ (fun k hk => (e k hk).2)]
  have h7 := hfill x0 w0
  unfold gaussFill at h7 ⊢
  rw [hrun, h7, hrule]

theorem ruleNear_mono {dx dw dx' dw' : ℝ} {l g : List (ℝ × ℝ)} (hx : dx ≤ dx') (hw : dw ≤ dw') (hp : ∀ p ∈ g, 0 < p.2)
    (h : Spec.RuleNear dx dw l g) : Spec.RuleNear dx' dw' l g := by
  unfold Spec.RuleNear at *
  induction h with
  | nil => exact .nil
  | cons hab _ ih =>
    refine .cons ⟨hab.1.trans hx, hab.2.trans (mul_le_mul_of_nonneg_right hw (hp _ (by simp)).le)⟩ (ih fun p h => hp p (List.mem_cons_of_mem _ h))

theorem eps_ok (N : Nat) (hN7 : N ≤ 10 ^ 7) : (4/9 : ℝ) ^ 64 / 2 < 3e-16 ∧ (3e-16 : ℝ) * ((N : ℝ) + 1/2) ^ 2 ≤ 1 := by
  constructor
  · norm_num
  · have h : (N : ℝ) ≤ 10 ^ 7 := by exact_mod_cast hN7
    have h0 : (0 : ℝ) ≤ N := by positivity
    have : ((N : ℝ) + 1/2) ^ 2 ≤ (10 ^ 7 + 1/2) ^ 2 := pow_le_pow_left₀ (by positivity) (by linarith) 2
    norm_num at *
    linarith

/-! ### C121 -/

/-- C121: for every number of points `N`, `gauss` comes to an end - no root needs more than seven Newton passes - and
what it stores, whatever the arrays held before, is the `N`-point Gauss-Legendre rule: every node within `3e-31 (N+½)²` of the true node,
every weight within a relative `1e-15 (N+½)²`. -/
theorem C121_gauss (N : Nat) (hN : 1 ≤ N) (hN7 : N ≤ 10 ^ 7) :
    ∃ l, (∀ fuel x0 w0, 7 ≤ fuel → gaussFill N 3e-16 fuel x0 w0 = some l) ∧
      ∃ g, Spec.IsGauss N g ∧ (∀ g', Spec.IsGauss N g' → g' = g) ∧
        Spec.RuleNear (3e-31 * ((N : ℝ) + 1/2) ^ 2) (1e-15 * ((N : ℝ) + 1/2) ^ 2) l g := by
  obtain ⟨e1, e2⟩ := eps_ok N hN7
  obtain ⟨th, t, pp, Z, H, hfill⟩ := gaussFill_stable N hN 3e-16 e1 e2
  have hg := exactRule_isGauss N th Z
  refine ⟨_, hfill, exactRule N th, hg, fun g' h => isGauss_unique N _ _ h hg, ?_⟩
  refine ruleNear_mono ?_ ?_ hg.positive (stored_near N th Z 3e-16 t pp H _ _)
  · exact mul_le_mul_of_nonneg_right (by norm_num) (by positivity)
  · exact mul_le_mul_of_nonneg_right (by norm_num) (by positivity)

/-- C121: the stored nodes are `N`, strictly increasing and inside (-1,1), and the stored weights positive. -/
theorem C121_shape (N : Nat) (hN : 1 ≤ N) (hN7 : N ≤ 10 ^ 7) (fuel : Nat) (hf : 7 ≤ fuel) (x0 w0 : Nat → ℝ) (l : List (ℝ × ℝ))
    (h : gaussFill N 3e-16 fuel x0 w0 = some l) :
    l.length = N ∧ (l.map Prod.fst).Pairwise (· < ·) ∧ ∀ p ∈ l, -1 < p.1 ∧ p.1 < 1 ∧ 0 < p.2 := by
  obtain ⟨e1, e2⟩ := eps_ok N hN7
  obtain ⟨th, t, pp, Z, H, hfill⟩ := gaussFill_stable N hN 3e-16 e1 e2
  rw [hfill fuel x0 w0 hf] at h
  cases h
  obtain ⟨a, b⟩ := stored_sorted N th Z 3e-16 t pp H (fun _ => 0) (fun _ => 0)
  exact ⟨by simp [gaussRule], a, b⟩

/-- Sums over two near rules. -/
theorem near_sum {dx dw B K : ℝ} {l g : List (ℝ × ℝ)} (f : ℝ → ℝ) (hl : ∀ p ∈ l, -1 < p.1 ∧ p.1 < 1 ∧ 0 < p.2) (hg : ∀ p ∈ g, -1 < p.1 ∧ p.1 < 1 ∧ 0 < p.2)
    (hB : ∀ x, -1 ≤ x → x ≤ 1 → |f x| ≤ B) (hK0 : 0 ≤ K) (hK : ∀ x y, -1 ≤ x → x ≤ 1 → -1 ≤ y → y ≤ 1 → |f x - f y| ≤ K * |x - y|)
    (h : Spec.RuleNear dx dw l g) :
    |(l.map fun p => p.2 * f p.1).sum - (g.map fun p => p.2 * f p.1).sum| ≤ (dw * B + K * dx) * (g.map Prod.snd).sum := by
  unfold Spec.RuleNear at h
  induction h with
  | nil => simp
  | @cons a b l g hab _ ih =>
    simp only [List.map_cons, List.sum_cons]
    have i := ih (fun p hp => hl p (List.mem_cons_of_mem _ hp)) (fun p hp => hg p (List.mem_cons_of_mem _ hp))
    have ha := hl a (by simp)
    have hb := hg b (by simp)
    have h1 : |a.2 * f a.1 - b.2 * f b.1| ≤ (dw * B + K * dx) * b.2 := by
      rw [show a.2 * f a.1 - b.2 * f b.1 = (a.2 - b.2) * f a.1 + b.2 * (f a.1 - f b.1) by ring]
      refine (abs_add_le _ _).trans ?_
      rw [abs_mul, abs_mul, abs_of_pos hb.2.2]
      have u := mul_le_mul hab.2 (hB a.1 ha.1.le ha.2.1.le) (abs_nonneg _) ((abs_nonneg _).trans hab.2)
      have v := mul_le_mul_of_nonneg_left ((hK a.1 b.1 ha.1.le ha.2.1.le hb.1.le hb.2.1.le).trans (mul_le_mul_of_nonneg_left hab.1 hK0)) hb.2.2.le
      linarith
    rw [show a.2 * f a.1 + (l.map fun p => p.2 * f p.1).sum - (b.2 * f b.1 + (g.map fun p => p.2 * f p.1).sum) =
      (a.2 * f a.1 - b.2 * f b.1) + ((l.map fun p => p.2 * f p.1).sum - (g.map fun p => p.2 * f p.1).sum) by ring]
    refine (abs_add_le _ _).trans ?_
    linarith

theorem poly_lip (f : ℝ[X]) (K : ℝ) (hK : ∀ x, -1 ≤ x → x ≤ 1 → |(derivative f).eval x| ≤ K) (x y : ℝ) (hx1 : -1 ≤ x) (hx2 : x ≤ 1) (hy1 : -1 ≤ y) (hy2 : y ≤ 1) :
    |f.eval x - f.eval y| ≤ K * |x - y| := by
  have := Convex.norm_image_sub_le_of_norm_deriv_le (f := fun t => f.eval t) (s := Set.Icc (-1 : ℝ) 1) (C := K)
    (fun t _ => f.differentiable t) (fun t ht => by
      rw [Polynomial.deriv, Real.norm_eq_abs]; exact hK t ht.1 ht.2) (convex_Icc _ _) ⟨hy1, hy2⟩ ⟨hx1, hx2⟩
  simpa [Real.norm_eq_abs] using this

/-- A rule near the Gauss rule integrates polynomials of degree below `2N` nearly. -/
theorem near_integral (N : Nat) (hN : 1 ≤ N) {dx dw : ℝ} {l g : List (ℝ × ℝ)} (hl : ∀ p ∈ l, -1 < p.1 ∧ p.1 < 1 ∧ 0 < p.2) (G : Spec.IsGauss N g)
    (near : Spec.RuleNear dx dw l g) (f : ℝ[X]) (hd : f.natDegree < 2 * N) (B K : ℝ)
    (hB : ∀ x, -1 ≤ x → x ≤ 1 → |f.eval x| ≤ B) (hK : ∀ x, -1 ≤ x → x ≤ 1 → |(derivative f).eval x| ≤ K) :
    |(l.map fun p => p.2 * f.eval p.1).sum - ∫ x in (-1 : ℝ)..1, f.eval x| ≤ 2 * (dw * B + dx * K) := by
  have hsum : (g.map Prod.snd).sum = 2 := by
    have := G.exact 1 (by simp; omega)
    simp only [eval_one, mul_one] at this
    rw [show (fun xw : ℝ × ℝ => xw.2) = Prod.snd from rfl] at this
    rw [this]
    simp
    norm_num
  have := near_sum (fun x => f.eval x) hl (fun p hp => ⟨(G.inside p hp).1, (G.inside p hp).2, G.positive p hp⟩) hB
    ((abs_nonneg _).trans (hK 0 (by norm_num) (by norm_num))) (poly_lip f K hK) near
  rw [hsum, G.exact f hd] at this
  linarith

/-- ... also after mapping to `[a,b]`. -/
theorem near_bin (N : Nat) (hN : 1 ≤ N) {dx dw : ℝ} {l g : List (ℝ × ℝ)} (hl : ∀ p ∈ l, -1 < p.1 ∧ p.1 < 1 ∧ 0 < p.2) (G : Spec.IsGauss N g)
    (near : Spec.RuleNear dx dw l g) (a b : ℝ) (hab : a < b) (f : ℝ[X]) (hd : f.natDegree < 2 * N) (B K : ℝ)
    (hB : ∀ x, a ≤ x → x ≤ b → |f.eval x| ≤ B) (hK : ∀ x, a ≤ x → x ≤ b → |(derivative f).eval x| ≤ K) :
    |((binRule a b l).map fun p => p.2 * f.eval p.1).sum - ∫ x in a..b, f.eval x| ≤ (b - a) * (dw * B + dx * ((b - a) / 2) * K) := by
  set c := (b - a) / 2 with hc
  have hc0 : 0 < c := by rw [hc]; linarith
  set q : ℝ[X] := f.comp (C c * X + C ((a + b) / 2)) with hq
  have hev : ∀ x, q.eval x = f.eval (c * x + (a + b) / 2) := by intro x; rw [hq, eval_comp]; simp
  have hdev : ∀ x, (derivative q).eval x = c * (derivative f).eval (c * x + (a + b) / 2) := by
    intro x; rw [hq, derivative_comp, eval_mul, eval_comp]; simp
  have hrng : ∀ x, -1 ≤ x → x ≤ 1 → a ≤ c * x + (a + b) / 2 ∧ c * x + (a + b) / 2 ≤ b := by
    intro x h1 h2
    constructor
    · have := mul_le_mul_of_nonneg_left h1 hc0.le; linarith
    · have := mul_le_mul_of_nonneg_left h2 hc0.le; linarith
  have hgd : q.natDegree < 2 * N := by
    refine lt_of_le_of_lt ?_ hd
    rw [hq]
    refine (natDegree_comp_le).trans ?_
    have : (C c * X + C ((a + b) / 2)).natDegree ≤ 1 := natDegree_linear_le
    calc f.natDegree * _ ≤ f.natDegree * 1 := Nat.mul_le_mul_left _ this
      _ = f.natDegree := mul_one _
  have key := near_integral N hN hl G near q hgd B (c * K) (fun x h1 h2 => by
      rw [hev]; exact hB _ (hrng x h1 h2).1 (hrng x h1 h2).2) (fun x h1 h2 => by
      rw [hdev, abs_mul, abs_of_pos hc0]; exact mul_le_mul_of_nonneg_left (hK _ (hrng x h1 h2).1 (hrng x h1 h2).2) hc0.le)
  have hint : ∫ x in a..b, f.eval x = c * ∫ x in (-1 : ℝ)..1, q.eval x := by
    simp only [hev]
    rw [intervalIntegral.integral_comp_mul_add (fun x => f.eval x) hc0.ne']
    rw [smul_eq_mul, ← mul_assoc, mul_inv_cancel₀ hc0.ne', one_mul]
    congr 1 <;> rw [hc] <;> ring
  have hsum : ((binRule a b l).map fun p => p.2 * f.eval p.1).sum = c * (l.map fun p => p.2 * q.eval p.1).sum := by
    unfold binRule
    rw [List.map_map, ← List.sum_map_mul_left]
    refine congrArg List.sum (List.map_congr_left fun p _ => ?_)
    simp only [Function.comp, mapNode, mapWeight, hev]
    rw [show (0.5 : ℝ) * (b - a) * p.1 + 0.5 * (b + a) = c * p.1 + (a + b) / 2 by rw [hc]; norm_num; ring]
    rw [hc]
    norm_num
    ring
  rw [hsum, hint, ← mul_sub, abs_mul, abs_of_pos hc0]
  have := mul_le_mul_of_nonneg_left key hc0.le
  have e : (b - a) = 2 * c := by rw [hc]; ring
  rw [e]
  linarith

/-- C121: every polynomial of degree below `2N` is integrated over (-1,1) by the stored rule with an error of at most
`2 (N+½)² (1e-15 max|f| + 3e-31 max|f'|)`. -/
theorem C121_integral (N : Nat) (hN : 1 ≤ N) (hN7 : N ≤ 10 ^ 7) (fuel : Nat) (hf : 7 ≤ fuel) (x0 w0 : Nat → ℝ) (l : List (ℝ × ℝ))
    (h : gaussFill N 3e-16 fuel x0 w0 = some l) (f : ℝ[X]) (hd : f.natDegree < 2 * N) (B K : ℝ)
    (hB : ∀ x, -1 ≤ x → x ≤ 1 → |f.eval x| ≤ B) (hK : ∀ x, -1 ≤ x → x ≤ 1 → |(derivative f).eval x| ≤ K) :
    |(l.map fun p => p.2 * f.eval p.1).sum - ∫ x in (-1 : ℝ)..1, f.eval x| ≤ 2 * ((N : ℝ) + 1/2) ^ 2 * (1e-15 * B + 3e-31 * K) := by
  obtain ⟨-, -, hl⟩ := C121_shape N hN hN7 fuel hf x0 w0 l h
  obtain ⟨l', hl', g, G, -, near⟩ := C121_gauss N hN hN7
  rw [hl' fuel x0 w0 hf] at h
  cases h
  refine (near_integral N hN hl G near f hd B K hB hK).trans_eq ?_
  ring

/-- C121: the same for the rule mapped to a bin `[a,b]` by `updateRange_a_b`, as the momentum grids use it. -/
theorem C121_bin (N : Nat) (hN : 1 ≤ N) (hN7 : N ≤ 10 ^ 7) (fuel : Nat) (hf : 7 ≤ fuel) (x0 w0 : Nat → ℝ) (l : List (ℝ × ℝ))
    (h : gaussFill N 3e-16 fuel x0 w0 = some l) (a b : ℝ) (hab : a < b) (f : ℝ[X]) (hd : f.natDegree < 2 * N) (B K : ℝ)
    (hB : ∀ x, a ≤ x → x ≤ b → |f.eval x| ≤ B) (hK : ∀ x, a ≤ x → x ≤ b → |(derivative f).eval x| ≤ K) :
    |((binRule a b l).map fun p => p.2 * f.eval p.1).sum - ∫ x in a..b, f.eval x| ≤
      (b - a) * ((N : ℝ) + 1/2) ^ 2 * (1e-15 * B + 3e-31 * ((b - a) / 2) * K) := by
  obtain ⟨-, -, hl⟩ := C121_shape N hN hN7 fuel hf x0 w0 l h
  obtain ⟨l', hl', g, G, -, near⟩ := C121_gauss N hN hN7
  rw [hl' fuel x0 w0 hf] at h
  cases h
  refine (near_bin N hN hl G near a b hab f hd B K hB hK).trans_eq ?_
  ring

/-! ### Cases -/

/-- The hypotheses are met, e.g. by the 48-point rule; for one point the rule is the midpoint rule, exactly. -/
example : ∃ l, gaussFill 48 3e-16 7 (fun _ => 5) (fun _ => 5) = some l ∧ l.length = 48 ∧ (l.map Prod.fst).Pairwise (· < ·) := by
  obtain ⟨l, hl, -⟩ := C121_gauss 48 (by norm_num) (by norm_num)
  have h := hl 7 (fun _ => 5) (fun _ => 5) le_rfl
  obtain ⟨a, b, -⟩ := C121_shape 48 (by norm_num) (by norm_num) 7 le_rfl _ _ l h
  exact ⟨l, h, a, b⟩

example : Spec.IsGauss 1 [(0, 2)] := by
  refine ⟨rfl, by simp, by simp, by simp, ?_⟩
  intro f hf
  have : f = C (f.coeff 1) * X + C (f.coeff 0) := eq_X_add_C_of_natDegree_le_one (by omega)
  rw [this]
  simp only [eval_add, eval_mul, eval_C, eval_X, List.map_cons, List.map_nil, List.sum_cons, List.sum_nil]
  rw [intervalIntegral.integral_add (Continuous.intervalIntegrable (by fun_prop) _ _) (Continuous.intervalIntegrable (by fun_prop) _ _),
    intervalIntegral.integral_const_mul, integral_id]
  norm_num

/-- The integral of `3x²+1` over the bin [0,2] with 4 points: within 1e-12 of 10. -/
example (l : List (ℝ × ℝ)) (h : gaussFill 4 3e-16 7 (fun _ => 0) (fun _ => 0) = some l) :
    |((binRule 0 2 l).map fun p => p.2 * (3 * p.1 ^ 2 + 1)).sum - 10| ≤ 1e-12 := by
  have key := C121_bin 4 (by norm_num) (by norm_num) 7 le_rfl _ _ l h 0 2 (by norm_num) (3 * X ^ 2 + 1)
    (by
      have : (3 * X ^ 2 + 1 : ℝ[X]).natDegree ≤ 2 := by compute_degree
      omega) 13 12
    (fun x h1 h2 => by simp; rw [abs_of_nonneg (by positivity)]; nlinarith)
    (fun x h1 h2 => by simp [derivative_pow]; rw [abs_of_nonneg (by positivity)]; linarith)
  simp only [eval_add, eval_mul, eval_pow, eval_X, eval_one, eval_ofNat] at key
  have hint : ∫ x in (0 : ℝ)..2, (3 * x ^ 2 + 1) = 10 := by
    rw [intervalIntegral.integral_add (Continuous.intervalIntegrable (by fun_prop) _ _) (Continuous.intervalIntegrable (by fun_prop) _ _), intervalIntegral.integral_const_mul, integral_pow]
    norm_num
  rw [hint] at key
  refine key.trans ?_
  norm_num

end TicTac
