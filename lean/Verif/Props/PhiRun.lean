import Verif.Lemmas.PhiRun
import Verif.Props.GaussRun
import Verif.Props.ChpMesh
import Verif.Props.FillP123
import Verif.Model.PermQuad
/-! C123: the phi mesh is delivered for every number of points and is the Gauss-Legendre rule. -/
noncomputable section
namespace TicTac
open Set Polynomial

section
variable {N : Nat} {s r d : ℝ}

/-- Roots are at least `1/(4(N+½)²)` apart. -/
theorem roots_apart (N : Nat) (hN : 1 ≤ N) (r r' : ℝ) (hr : (Spec.legendre N).eval r = 0) (hr' : (Spec.legendre N).eval r' = 0) (hne : r' ≠ r)
    (hwide : 9/4 ≤ ((N : ℝ) + 1/2) ^ 2 * (1 - r ^ 2)) : 1 / (4 * ((N : ℝ) + 1/2) ^ 2) < |r' - r| := by
  have hM0 : (0 : ℝ) < (N : ℝ) + 1/2 := by positivity
  set M := (N : ℝ) + 1/2 with hM
  have hW : 0 < 1 - r ^ 2 := by
    by_contra hc
    push Not at hc
    have := mul_nonpos_of_nonneg_of_nonpos (sq_nonneg M) hc
    linarith
  set d := 1 / (4 * M ^ 2) with hd
  have hd0 : 0 < d := by rw [hd]; positivity
  have hdM : M ^ 2 * d = 1/4 := by rw [hd]; field_simp
  have hnear : d ≤ (1 - r ^ 2) / 8 := by
    have h3 : M ^ 2 * d ≤ M ^ 2 * ((1 - r ^ 2) / 8) := by linarith
    exact le_of_mul_le_mul_left h3 (by positivity)
  have hd9 : d ≤ (1 - r ^ 2) / 9 := by
    have h3 : M ^ 2 * d ≤ M ^ 2 * ((1 - r ^ 2) / 9) := by linarith
    exact le_of_mul_le_mul_left h3 (by positivity)
  have hosc : M ^ 2 * d ^ 2 ≤ (1 - r ^ 2) / 15 := by
    rw [pow_two d, ← mul_assoc, hdM]
    linarith
  obtain ⟨s, hs, W⟩ := legendre_zone N r d hr hd0 hnear hosc
  by_contra hc
  push Not at hc
  obtain ⟨-, -, -, -, h5⟩ := local_leg hs W r' hc
  rw [hr', zero_div, sub_zero] at h5
  have := abs_pos.2 (sub_ne_zero.2 hne)
  linarith

/-- The weight at the delivered point. -/
theorem local_weight (hN3 : N ≤ 3000) (hs : s ≠ 0) (Z : LocalZone (C s * Spec.legendre N) (N * (N + 1)) ((N : ℝ) + 1/2) r d)
    (hwide : 9/4 ≤ ((N : ℝ) + 1/2) ^ 2 * (1 - r ^ 2)) (z : ℝ) (hz : |z - r| ≤ d) (he : |z - r| * (1 - r ^ 2) ≤ 9e-18) :
    |z - r| ≤ 4e-18 * ((N : ℝ) + 1/2) ^ 2 ∧
    |gaussW z ((derivative (Spec.legendre N)).eval z) - gaussW r ((derivative (Spec.legendre N)).eval r)| ≤
      4e-18 * ((N : ℝ) + 1/2) ^ 4 * gaussW r ((derivative (Spec.legendre N)).eval r) ∧
      0 < gaussW z ((derivative (Spec.legendre N)).eval z) := by
  have hW := Z.W0
  have hM0 : (0 : ℝ) < (N : ℝ) + 1/2 := by positivity
  have hMle : (N : ℝ) + 1/2 ≤ 3001 := by
    have : (N : ℝ) ≤ 3000 := by exact_mod_cast hN3
    linarith
  obtain ⟨w1, w2, w3, w4⟩ := Z.range z hz
  have hLr := Z.L_range z hz
  have hLd := Z.L_dist _ (fun x hx => (Z.L_range x hx).2) z hz
  have hA := Z.A
  have hdz := Z.deriv_pos z hz
  have e0 := abs_nonneg (z - r)
  simp only [derivative_C_mul, eval_mul, eval_C] at hLr hLd hA hdz
  generalize (derivative (Spec.legendre N)).eval r = a at *
  generalize (derivative (Spec.legendre N)).eval z = b at *
  generalize (N : ℝ) + 1/2 = M at *
  generalize |z - r| = e at *
  set W := 1 - r ^ 2 with hWd
  -- size of e
  have hM2 : M ^ 2 ≤ 9006001 := (pow_le_pow_left₀ hM0.le hMle 2).trans (by norm_num)
  have heM : e ≤ 4e-18 * M ^ 2 := by
    have h1 := mul_le_mul_of_nonneg_left hwide e0
    have h2 := mul_le_mul_of_nonneg_right he (sq_nonneg M)
    have h3 : e * (M ^ 2 * W) = e * W * M ^ 2 := by ring
    rw [h3] at h1
    norm_num at h2 ⊢
    linarith
  have ha0 : a ≠ 0 := by rintro rfl; simp at hA
  have hb0 : b ≠ 0 := by rintro rfl; simp at hdz
  have hWz : 0 < 1 - z ^ 2 := by linarith
  have hWr : 0 < gaussW r a := gaussW_pos r a (by linarith) ha0
  have hWzp : 0 < gaussW z b := gaussW_pos z b (by linarith) hb0
  refine ⟨heM, ?_, hWzp⟩
  set A := W * (s * a) with hAd
  have hA0 : 0 < A := mul_pos hW hA
  set L := (1 - z ^ 2) * (s * b) with hLd'
  have hL0 : 9/10 * A ≤ L := hLr.1
  have hLpos : 0 < L := by linarith
  set q := A / L with hq
  have hWeq : gaussW z b = (1 - z ^ 2) / W * q ^ 2 * gaussW r a := by
    unfold gaussW
    rw [hq, hAd, hLd', ← pow_two z, ← pow_two r, ← hWd]
    have := hW.ne'
    have := hWz.ne'
    field_simp
  set T := M ^ 4 with hT
  have hT0 : 0 < T := by positivity
  have hTM : T = M ^ 2 * M ^ 2 := by rw [hT]; ring
  have hTle : T ≤ 82000000000000 := by
    rw [hTM]
    have := mul_le_mul hM2 hM2 (by positivity) (by norm_num)
    linarith
  -- ratio of the arguments
  have hu : |(1 - z ^ 2) / W - 1| ≤ 36e-19 * T := by
    rw [div_sub_one hW.ne', abs_div, abs_of_pos hW, div_le_iff₀ hW]
    have h1 : |1 - z ^ 2 - W| ≤ 2 * e := by
      rw [hWd, show 1 - z ^ 2 - (1 - r ^ 2) = -(z ^ 2 - r ^ 2) by ring, abs_neg]; exact w4
    have h2 : 2 * e ≤ 8e-18 * M ^ 2 := by norm_num at heM ⊢; linarith
    have h3 : 8e-18 * M ^ 2 ≤ 36e-19 * T * W := by
      have := mul_le_mul_of_nonneg_left hwide (show (0 : ℝ) ≤ 36e-19 * M ^ 2 by positivity)
      rw [hTM]
      norm_num at this ⊢
      linarith
    linarith
  have hv : |A - L| ≤ 9e-22 * T * A := by
    rw [abs_sub_comm]
    refine hLd.trans ?_
    have e1 : M ^ 2 * (4/3 * (11/10 * A / W) * e) * e = 22/15 * A * (M ^ 2 * e ^ 2 / W) := by ring
    rw [e1]
    have h1 : M ^ 2 * e ^ 2 / W ≤ 6e-22 * T := by
      rw [div_le_iff₀ hW]
      have h2 : e ^ 2 ≤ 16e-36 * T := by
        have := pow_le_pow_left₀ e0 heM 2
        rw [mul_pow, ← pow_mul] at this
        norm_num at this ⊢
        rw [hT]
        linarith
      have h3 : M ^ 2 * e ^ 2 ≤ M ^ 2 * (16e-36 * T) := mul_le_mul_of_nonneg_left h2 (sq_nonneg M)
      have h4 : M ^ 2 * (16e-36 * T) ≤ 7.2e-36 * T * T * W := by
        have := mul_le_mul_of_nonneg_left hwide (show (0 : ℝ) ≤ 7.2e-36 * T * M ^ 2 by positivity)
        have e2 : (7.2e-36 : ℝ) * T * T * W = 7.2e-36 * T * M ^ 2 * (M ^ 2 * W) := by rw [hTM]; ring
        rw [e2]
        have hp : 0 ≤ T * M ^ 2 := by positivity
        norm_num at this ⊢
        linarith
      have h5 : 7.2e-36 * T * T * W ≤ 6e-22 * T * W := by
        have := mul_le_mul_of_nonneg_left hTle (show (0 : ℝ) ≤ 7.2e-36 * T * W by positivity)
        have hp : 0 ≤ T * W := by positivity
        norm_num at this ⊢
        linarith
      linarith
    have h6 := mul_le_mul_of_nonneg_left h1 (show 0 ≤ 22/15 * A by positivity)
    refine h6.trans ?_
    have hp : 0 ≤ A * T := by positivity
    norm_num
    linarith
  have hq1 : |q - 1| ≤ 1e-21 * T := by
    rw [hq, div_sub_one hLpos.ne', abs_div, abs_of_pos hLpos, div_le_iff₀ hLpos]
    refine hv.trans ?_
    have := mul_le_mul_of_nonneg_left hL0 (show (0 : ℝ) ≤ 1e-21 * T by positivity)
    norm_num at this ⊢
    linarith
  have hq2 : |q ^ 2 - 1| ≤ 3e-21 * T := by
    rw [show q ^ 2 - 1 = (q - 1) * (q - 1) + 2 * (q - 1) by ring]
    refine (abs_add_le _ _).trans ?_
    rw [abs_mul, abs_mul, abs_two]
    have h1 : |q - 1| ≤ 1 := hq1.trans (by norm_num; linarith)
    have := mul_le_mul_of_nonneg_left h1 (abs_nonneg (q - 1))
    generalize |q - 1| = y at *
    norm_num at hq1 ⊢
    linarith
  rw [hWeq, show (1 - z ^ 2) / W * q ^ 2 * gaussW r a - gaussW r a = ((1 - z ^ 2) / W * q ^ 2 - 1) * gaussW r a by ring, abs_mul, abs_of_pos hWr]
  refine mul_le_mul_of_nonneg_right ?_ hWr.le
  set κ := (1 - z ^ 2) / W
  rw [show κ * q ^ 2 - 1 = (κ - 1) * (q ^ 2 - 1) + (κ - 1) + (q ^ 2 - 1) by ring]
  refine (abs_add_le _ _).trans ?_
  have h1 := abs_add_le ((κ - 1) * (q ^ 2 - 1)) (κ - 1)
  rw [abs_mul] at h1
  have h2 : |q ^ 2 - 1| ≤ 1/1000 := hq2.trans (by norm_num; linarith)
  have h3 := mul_le_mul_of_nonneg_left h2 (abs_nonneg (κ - 1))
  norm_num at hu hq2 ⊢
  linarith
end

/-- Everything known about the points of the phi mesh. -/
theorem phi_points {P : Int → ℝ → ℝ} (hP : Spec.IsLegendrePl P) (N : Nat) (hN : 1 ≤ N) (hN3 : N ≤ 3000) :
    ∃ (th : Nat → ℝ) (_ : LegZeros N (Real.pi / ((N : ℝ) + 1/2)) th) (z : Nat → ℝ), rootsGsl P N = some ((List.range N).map z) ∧ ∀ j < N,
      z j ^ 2 < 1 ∧ 9/4 ≤ ((N : ℝ) + 1/2) ^ 2 * (1 - Real.cos (th (j + 1)) ^ 2) ∧
      |z j - -Real.cos (th (j + 1))| ≤ 4e-18 * ((N : ℝ) + 1/2) ^ 2 ∧
      |gaussW (z j) ((derivative (Spec.legendre N)).eval (z j)) - gaussW (Real.cos (th (j + 1))) ((derivative (Spec.legendre N)).eval (Real.cos (th (j + 1))))| ≤
        4e-18 * ((N : ℝ) + 1/2) ^ 4 * gaussW (Real.cos (th (j + 1))) ((derivative (Spec.legendre N)).eval (Real.cos (th (j + 1)))) ∧
      0 < gaussW (z j) ((derivative (Spec.legendre N)).eval (z j)) := by
  classical
  obtain ⟨th, Z⟩ := legZeros_exist N
  have H : ∀ j, j < N → ∃ z, newtonRoot P N 100 (rootStart N j) = some z ∧ (z ^ 2 < 1 ∧ 9/4 ≤ ((N : ℝ) + 1/2) ^ 2 * (1 - Real.cos (th (j + 1)) ^ 2) ∧
      |z - -Real.cos (th (j + 1))| ≤ 4e-18 * ((N : ℝ) + 1/2) ^ 2 ∧
      |gaussW z ((derivative (Spec.legendre N)).eval z) - gaussW (Real.cos (th (j + 1))) ((derivative (Spec.legendre N)).eval (Real.cos (th (j + 1))))| ≤
        4e-18 * ((N : ℝ) + 1/2) ^ 4 * gaussW (Real.cos (th (j + 1))) ((derivative (Spec.legendre N)).eval (Real.cos (th (j + 1)))) ∧
      0 < gaussW z ((derivative (Spec.legendre N)).eval z)) := by
    intro j hj
    obtain ⟨s, d, hs, W, hst, hwide⟩ := phi_zone N hN3 th Z j hj
    have hwide' : 9/4 ≤ ((N : ℝ) + 1/2) ^ 2 * (1 - (-Real.cos (th (j + 1))) ^ 2) := by rw [neg_sq]; exact hwide
    obtain ⟨z, z1, z2, z3⟩ := newtonRoot_near hP hN hN3 hs W hwide' (rootStart N j) (by rw [sub_neg_eq_add]; exact hst)
    obtain ⟨w1, w2, w3⟩ := local_weight hN3 hs W hwide' z z2 z3
    have hneg : gaussW (-Real.cos (th (j + 1))) ((derivative (Spec.legendre N)).eval (-Real.cos (th (j + 1)))) =
        gaussW (Real.cos (th (j + 1))) ((derivative (Spec.legendre N)).eval (Real.cos (th (j + 1)))) := by
      unfold gaussW
      have := legendre_deriv_neg_sq N (Real.cos (th (j + 1)))
      rw [mul_assoc, mul_assoc, ← pow_two ((derivative (Spec.legendre N)).eval (-Real.cos (th (j + 1)))), this]
      ring_nf
    rw [hneg] at w2
    exact ⟨z, z1, (local_leg hs W z z2).2.1, hwide, w1, w2, w3⟩
  choose! z hz hzz using H
  refine ⟨th, Z, z, ?_, hzz⟩
  unfold rootsGsl
  exact mapM_some_of_forall _ _ _ fun j hj => hz j (List.mem_range.1 hj)

/-- The rule behind the phi meshes of all cells. -/
theorem phi_base {P : Int → ℝ → ℝ} (hP : Spec.IsLegendrePl P) (N : Nat) (hN : 1 ≤ N) (hN3 : N ≤ 3000) :
    ∃ (z : Nat → ℝ) (l : List (ℝ × ℝ)), rootsGsl P N = some ((List.range N).map z) ∧ (∀ lo hi, gaussMesh P N lo hi = some (Spec.mapped lo hi l)) ∧
      (∀ lo hi, (List.range N).map (fun (j : Nat) => gaussPoint P N z lo hi j) = Spec.mapped lo hi l) ∧
      (l.map Prod.fst).Pairwise (· < ·) ∧ (∀ p ∈ l, -1 < p.1 ∧ p.1 < 1 ∧ 0 < p.2) ∧ l.length = N ∧ l.map Prod.fst = (List.range N).map z ∧
      ∃ g, Spec.IsGauss N g ∧ Spec.RuleNear (4e-18 * ((N : ℝ) + 1/2) ^ 2) (4e-18 * ((N : ℝ) + 1/2) ^ 4) l g := by
  obtain ⟨th, Z, z, hz, H⟩ := phi_points hP N hN hN3
  have hpt : ∀ lo hi, (List.range N).map (fun (j : Nat) => gaussPoint P N z lo hi j) =
      Spec.mapped lo hi ((List.range N).map fun j => (z j, gaussW (z j) ((derivative (Spec.legendre N)).eval (z j)))) := by
    intro lo hi
    unfold Spec.mapped
    rw [List.map_map]
    refine List.map_congr_left fun j hj => ?_
    unfold gaussPoint gaussW
    rw [dLegendre_eq hP N hN _ (H j (List.mem_range.1 hj)).1]
    simp only [Function.comp]
    refine Prod.ext (by dsimp only; ring) ?_
    dsimp only
    generalize (derivative (Spec.legendre N)).eval (z j) = b
    rw [mul_one, div_div, mul_assoc (1 - z j * z j) b b]
    ring
  refine ⟨z, (List.range N).map fun j => (z j, gaussW (z j) ((derivative (Spec.legendre N)).eval (z j))), hz, ?_, hpt, ?_, ?_, by simp, ?_, exactRule N th,
    exactRule_isGauss N th Z, ?_⟩
  · intro lo hi
    unfold gaussMesh
    rw [hz, Option.map_some, ← hpt]
    congr 1
    refine List.map_congr_left fun j hj => ?_
    have : ((List.range N).map z).getD j 0 = z j := by
      have := List.mem_range.1 hj
      rw [List.getD_eq_getElem _ _ (by simpa using this)]
      simp
    unfold gaussPoint
    beta_reduce
    rw [this]
  · rw [List.map_map, List.pairwise_map]
    refine List.Pairwise.imp_of_mem ?_ (List.pairwise_lt_range (n := N))
    intro a b ha hb hab
    have ha' := List.mem_range.1 ha
    have hb' := List.mem_range.1 hb
    obtain ⟨-, wa, ea, -⟩ := H a ha'
    obtain ⟨-, -, eb, -⟩ := H b hb'
    have hmem := Z.mem (a + 1) (by omega) (by omega)
    have hmem2 := Z.mem (b + 1) (by omega) (by omega)
    have hlt := Real.cos_lt_cos_of_nonneg_of_le_pi hmem.1.le hmem2.2.le (Z.lt (a + 1) (b + 1) (by omega) (by omega) (by omega))
    have hap := roots_apart N hN (-Real.cos (th (a + 1))) (-Real.cos (th (b + 1)))
      (by rw [legendre_eval_neg, Z.root (a + 1) (by omega) (by omega), mul_zero]) (by rw [legendre_eval_neg, Z.root (b + 1) (by omega) (by omega), mul_zero])
      (by intro h; linarith) (by rw [neg_sq]; exact wa)
    rw [abs_of_pos (by linarith)] at hap
    have hM0 : (0 : ℝ) < (N : ℝ) + 1/2 := by positivity
    have hMle : (N : ℝ) + 1/2 ≤ 3001 := by
      have : (N : ℝ) ≤ 3000 := by exact_mod_cast hN3
      linarith
    have hM2 : ((N : ℝ) + 1/2) ^ 2 ≤ 9006001 := (pow_le_pow_left₀ hM0.le hMle 2).trans (by norm_num)
    have hlow : 1 / (4 * 9006001) ≤ 1 / (4 * ((N : ℝ) + 1/2) ^ 2) := one_div_le_one_div_of_le (by positivity) (by linarith)
    have ea1 := (abs_le.1 ea).2
    have eb1 := (abs_le.1 eb).1
    show z a < z b
    have : (4e-18 : ℝ) * ((N : ℝ) + 1/2) ^ 2 ≤ 4e-18 * 9006001 := mul_le_mul_of_nonneg_left hM2 (by norm_num)
    norm_num at this hlow ea1 eb1 hap
    linarith
  · intro p hp
    obtain ⟨j, hj, rfl⟩ := List.mem_map.1 hp
    obtain ⟨h1, -, -, -, h5⟩ := H j (List.mem_range.1 hj)
    have := (sq_lt_one_iff_abs_lt_one (z j)).1 h1
    exact ⟨(abs_lt.1 this).1, (abs_lt.1 this).2, h5⟩
  · rw [List.map_map]; rfl
  · unfold Spec.RuleNear exactRule
    rw [List.forall₂_map_left_iff, List.forall₂_map_right_iff, List.forall₂_same]
    intro j hj
    obtain ⟨-, -, h3, h4, -⟩ := H j (List.mem_range.1 hj)
    exact ⟨h3, h4⟩

/-- C123: for every number of points and every interval the phi mesh is delivered (GSL never stops the program, and a hundred passes
always suffice), and it is the Gauss-Legendre rule of that interval. -/
theorem C123_mesh {P : Int → ℝ → ℝ} (hP : Spec.IsLegendrePl P) (N : Nat) (hN : 1 ≤ N) (hN3 : N ≤ 3000) (lo hi : ℝ) (hlh : lo ≤ hi) :
    ∃ m g, gaussMesh P N lo hi = some m ∧ Spec.IsGauss N g ∧
      Spec.RuleNear ((hi - lo) / 2 * (4e-18 * ((N : ℝ) + 1/2) ^ 2)) (4e-18 * ((N : ℝ) + 1/2) ^ 4) m (Spec.mapped lo hi g) := by
  obtain ⟨z, l, -, h2, -, -, -, -, -, g, G, near⟩ := phi_base hP N hN hN3
  exact ⟨_, g, h2 lo hi, G, near_mapped hlh near⟩

/-- C123: its points are strictly increasing and strictly inside the interval, its weights positive. -/
theorem C123_points {P : Int → ℝ → ℝ} (hP : Spec.IsLegendrePl P) (N : Nat) (hN : 1 ≤ N) (hN3 : N ≤ 3000) (lo hi : ℝ) (hlh : lo < hi) (m : List (ℝ × ℝ))
    (h : gaussMesh P N lo hi = some m) :
    m.length = N ∧ (m.map Prod.fst).Pairwise (· < ·) ∧ ∀ p ∈ m, lo < p.1 ∧ p.1 < hi ∧ 0 < p.2 := by
  obtain ⟨z, b, -, h2, -, b1, b2, b3, -, -⟩ := phi_base hP N hN hN3
  rw [h2 lo hi] at h
  cases h
  have hc : 0 < (hi - lo) / 2 := by linarith
  refine ⟨by unfold Spec.mapped; rw [List.length_map, b3], ?_, ?_⟩
  · unfold Spec.mapped
    rw [List.map_map, List.pairwise_map]
    rw [List.pairwise_map] at b1
    refine b1.imp fun {p q} h => ?_
    simp only [Function.comp]
    have := mul_lt_mul_of_pos_left h hc
    linarith
  · intro p hp
    obtain ⟨q, hq, rfl⟩ := List.mem_map.1 hp
    obtain ⟨u, v, w⟩ := b2 q hq
    have := mul_lt_mul_of_pos_left u hc
    have := mul_lt_mul_of_pos_left v hc
    exact ⟨by dsimp only; linarith, by dsimp only; linarith, mul_pos hc w⟩

/-- C123: every polynomial of degree below `2N` is integrated over the interval with a small error. -/
theorem C123_integral {P : Int → ℝ → ℝ} (hP : Spec.IsLegendrePl P) (N : Nat) (hN : 1 ≤ N) (hN3 : N ≤ 3000) (lo hi : ℝ) (hlh : lo < hi) (m : List (ℝ × ℝ))
    (h : gaussMesh P N lo hi = some m) (f : ℝ[X]) (hd : f.natDegree < 2 * N) (B K : ℝ)
    (hB : ∀ x, lo ≤ x → x ≤ hi → |f.eval x| ≤ B) (hK : ∀ x, lo ≤ x → x ≤ hi → |(derivative f).eval x| ≤ K) :
    |(m.map fun p => p.2 * f.eval p.1).sum - ∫ x in lo..hi, f.eval x| ≤
      4e-18 * (hi - lo) * (((N : ℝ) + 1/2) ^ 4 * B + ((N : ℝ) + 1/2) ^ 2 * ((hi - lo) / 2) * K) := by
  obtain ⟨z, b, -, h2, -, b1, b2, b3, -, g, G, near⟩ := phi_base hP N hN hN3
  rw [h2 lo hi] at h
  cases h
  rw [← binRule_mapped]
  refine (near_bin N hN b2 G near lo hi hlh f hd B K hB hK).trans_eq ?_
  ring

/-- C123: for all sizes the quadrature of the permutation matrix is delivered. -/
theorem C123_quad_exists {P : Int → ℝ → ℝ} (hP : Spec.IsLegendrePl P) (Nx Nphi : Nat) (hx : 1 ≤ Nx) (hx7 : Nx ≤ 10 ^ 7) (hN : 1 ≤ Nphi) (hN3 : Nphi ≤ 3000) :
    ∃ m : Quad, m.P = P ∧ QuadOf Nx Nphi m := by
  obtain ⟨l, hl, -⟩ := C121_gauss Nx hx hx7
  obtain ⟨hlen, -⟩ := C121_shape Nx hx hx7 7 le_rfl (fun _ => 0) (fun _ => 0) l (hl 7 _ _ le_rfl)
  obtain ⟨z, -, hz, -⟩ := phi_base hP Nphi hN hN3
  refine ⟨⟨Nx, fun k => (l.getD k (0, 0)).1, fun k => (l.getD k (0, 0)).2, Nphi, z, P⟩, rfl, rfl, rfl, ⟨7, fun _ => 0, fun _ => 0, l, le_rfl, hl 7 _ _ le_rfl, ?_⟩, _, hz, ?_⟩
  · intro k hk
    dsimp only
    rw [List.getD_eq_getElem _ _ (by omega), List.getElem?_eq_getElem (by omega)]
  · intro j hj
    simp [hj]

/-- C123: and it meets what C85-C87 ask of it (`xIn`, `zIn`); the phi rule of every cell and the x rule are the Gauss-Legendre rules. -/
theorem C123_quad {Nx Nphi : Nat} {m : Quad} (hP : Spec.IsLegendrePl m.P) (hx : 1 ≤ Nx) (hx7 : Nx ≤ 10 ^ 7) (hN : 1 ≤ Nphi) (hN3 : Nphi ≤ 3000)
    (h : QuadOf Nx Nphi m) :
    (∀ k < m.Nx, -1 < m.x k ∧ m.x k < 1) ∧ (∀ f < m.Nphi, -1 < m.z f ∧ m.z f < 1) ∧
    (∃ gx, Spec.IsGauss Nx gx ∧ Spec.RuleNear (3e-31 * ((Nx : ℝ) + 1/2) ^ 2) (1e-15 * ((Nx : ℝ) + 1/2) ^ 2) ((List.range m.Nx).map fun (k : Nat) => (m.x k, m.wx k)) gx) ∧
    ∃ g, Spec.IsGauss Nphi g ∧ ∀ c : Cell, c.Proper → Spec.RuleNear ((Spec.hyperAngle c.pu c.ql - Spec.hyperAngle c.pl c.qu) / 2 * (4e-18 * ((Nphi : ℝ) + 1/2) ^ 2))
      (4e-18 * ((Nphi : ℝ) + 1/2) ^ 4) (Spec.cellRule m.P m.Nphi m.z c) (Spec.mapped (Spec.hyperAngle c.pl c.qu) (Spec.hyperAngle c.pu c.ql) g) := by
  obtain ⟨e1, e2, ⟨fuel, x0, w0, l, hf, hl, hlk⟩, z, hz, hzk⟩ := h
  obtain ⟨l', hl', gx, Gx, -, nearx⟩ := C121_gauss Nx hx hx7
  obtain ⟨hlen, -, hin⟩ := C121_shape Nx hx hx7 fuel hf x0 w0 l hl
  obtain rfl : l' = l := by have := hl' fuel x0 w0 hf; rw [hl] at this; exact (Option.some.inj this).symm
  obtain ⟨z', b, hz', h2, h3, b1, b2, b3, b4, g, G, near⟩ := phi_base hP Nphi hN hN3
  obtain rfl : (List.range Nphi).map z' = z := by rw [hz] at hz'; exact (Option.some.inj hz').symm
  have hzz : ∀ j < Nphi, z' j = m.z j := by
    intro j hj
    have := hzk j hj
    simpa [hj] using this
  have hlist : (List.range Nx).map (fun (k : Nat) => (m.x k, m.wx k)) = l' := by
    apply List.ext_getElem? 
    intro k
    rcases Nat.lt_or_ge k Nx with hk | hk
    · rw [hlk k hk]; simp [hk]
    · rw [List.getElem?_eq_none (by simpa using hk), List.getElem?_eq_none (by omega)]
  refine ⟨?_, ?_, ⟨gx, Gx, by rw [e1, hlist]; exact nearx⟩, g, G, ?_⟩
  · intro k hk
    rw [e1] at hk
    have := List.mem_of_getElem? (hlk k hk)
    exact ⟨(hin _ this).1, (hin _ this).2.1⟩
  · intro j hj
    rw [e2] at hj
    have : z' j ∈ b.map Prod.fst := by rw [b4]; exact List.mem_map.2 ⟨j, List.mem_range.2 hj, rfl⟩
    obtain ⟨p, hp, hpz⟩ := List.mem_map.1 this
    rw [← hzz j hj, ← hpz]
    exact ⟨(b2 p hp).1, (b2 p hp).2.1⟩
  · intro c hc
    have hlh : Spec.hyperAngle c.pl c.qu ≤ Spec.hyperAngle c.pu c.ql := (phi_range c hc).le
    have e : Spec.cellRule m.P m.Nphi m.z c = Spec.mapped (Spec.hyperAngle c.pl c.qu) (Spec.hyperAngle c.pu c.ql) b := by
      rw [← h3]
      unfold Spec.cellRule
      rw [e2]
      refine List.map_congr_left fun j hj => ?_
      have hj' := List.mem_range.1 hj
      unfold gaussPoint Spec.legendreSlope dLegendre
      rw [hzz j hj']
      generalize Spec.hyperAngle c.pl c.qu = a
      generalize Spec.hyperAngle c.pu c.ql = b
      generalize m.P (Nphi : Int) (m.z j) = u
      generalize m.P ((Nphi : Int) - 1) (m.z j) = v
      generalize m.z j = z
      have hd : (Nphi * z * u - Nphi * v) / (z * z - 1) = Nphi * (z * u - v) / (z ^ 2 - 1) := by
        rw [show (Nphi : ℝ) * z * u - Nphi * v = Nphi * (z * u - v) by ring, show z * z - 1 = z ^ 2 - 1 by ring]
      rw [hd]
      generalize (Nphi : ℝ) * (z * u - v) / (z ^ 2 - 1) = d
      refine Prod.ext (by ring) ?_
      show (b - a) / 2 * (2 / ((1 - z ^ 2) * d ^ 2)) = 2 / (1 - z * z) * 1 / (d * d) * (b - a) / 2
      rw [show 1 - z ^ 2 = 1 - z * z by ring, show d ^ 2 = d * d by ring]
      generalize 1 - z * z = u
      generalize d * d = w
      rw [← div_div, mul_one]
      ring
    rw [e]
    exact near_mapped hlh near

/-- The hypotheses are met: 48 points on the default range of angles. -/
example {P : Int → ℝ → ℝ} (hP : Spec.IsLegendrePl P) : ∃ m, gaussMesh P 48 0 1 = some m ∧ m.length = 48 := by
  obtain ⟨m, -, h, -⟩ := C123_mesh hP 48 (by norm_num) (by norm_num) 0 1 (by norm_num)
  exact ⟨m, h, (C123_points hP 48 (by norm_num) (by norm_num) 0 1 (by norm_num) m h).1⟩

/-- Such a `P` exists. -/
example : Spec.IsLegendrePl fun n x => (Spec.legendre n.toNat).eval x := fun n x _ => by simp
end TicTac
