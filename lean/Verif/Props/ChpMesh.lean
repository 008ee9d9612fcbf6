import Verif.Model.ChpMesh
import Verif.Props.GaussRun
/-! C122: the quadrature meshes of the chiral potentials: right for every even number of points, wrong in the middle for odd ones. -/
noncomputable section
namespace TicTac
open Polynomial

/-! ### The Newton loop -/

theorem mesh_loop_stops {N : Nat} {s r x0 : ℝ} (hN : 1 ≤ N) (hs : s ≠ 0) (Z : NewtonZone (C s * Spec.legendre N) (N * (N + 1)) ((N : ℝ) + 1/2) r x0) (eps : ℝ)
    (fuel k : Nat) (t t1 pp : ℝ) (inv : NewtonInv N r x0 k t t1 pp) (hf : (4/9 : ℝ) ^ (2 ^ (k + fuel)) / 2 < eps) :
    ∃ k' t' t1' pp', meshWhile N eps fuel (t, t1, pp) = some (t', t1', pp') ∧ NewtonInv N r x0 k' t' t1' pp' ∧ |t' - t1'| ≤ eps := by
  induction fuel generalizing k t t1 pp with
  | zero =>
    have hlt : |t - t1| ≤ eps := by
      have h := newton_leg hs Z t1 inv.lo inv.hi
      rw [← inv.step] at h
      rw [abs_of_nonpos (by linarith [h.2.1])]
      have hD : 1 - x0 ^ 2 ≤ 1 := by have := sq_nonneg x0; linarith
      have := mul_le_mul_of_nonneg_left hD (show (0 : ℝ) ≤ (4/9) ^ (2 ^ k) by positivity)
      have := inv.small
      simp only [add_zero] at hf
      linarith [h.1]
    refine ⟨k, t, t1, pp, ?_, inv, hlt⟩
    unfold meshWhile
    rw [if_neg (not_lt.2 hlt)]
  | succ f ih =>
    unfold meshWhile
    by_cases hge : |t - t1| > eps
    · rw [if_pos hge]
      have h := newton_leg hs Z t1 inv.lo inv.hi
      rw [← inv.step] at h
      have htx : t ≤ x0 := h.2.1.trans inv.hi
      obtain ⟨e1, e2⟩ := gauss_pass hN hs Z t h.1 htx
      refine ih (k + 1) _ _ _ ⟨h.1, htx, e1, e2, ?_⟩ (by rw [show k + 1 + f = k + (f + 1) by ring]; exact hf)
      have hD := (Z.sq_lt x0 Z.rx.le le_rfl).2
      have hsm := inv.small
      have h0 : 0 ≤ 2 * (t1 - r) := by linarith [inv.lo]
      have h3 := mul_le_mul hsm hsm h0 (by positivity)
      have e : (4/9 : ℝ) ^ (2 ^ (k + 1)) = (4/9) ^ (2 ^ k) * (4/9) ^ (2 ^ k) := by rw [← pow_add]; congr 1; ring
      rw [e]
      have : 2 * (t - r) * (1 - x0 ^ 2) ≤ (4/9 : ℝ) ^ (2 ^ k) * (4/9) ^ (2 ^ k) * (1 - x0 ^ 2) * (1 - x0 ^ 2) := by
        nlinarith [h.2.2]
      exact le_of_mul_le_mul_right this hD
    · rw [if_neg hge]
      exact ⟨k, t, t1, pp, rfl, inv, not_lt.1 hge⟩

/-- The start value of a root off the middle is at least `1/(n+½)`. -/
theorem start_ge (N i : Nat) (h1 : 1 ≤ i) (h2 : 2 * i < N + 1) : 1 / ((N : ℝ) + 1/2) ≤ gaussStart N i := by
  rw [gaussStart_eq]
  have hhp := LegZeros.step_pos N
  have hm := LegZeros.step_mul N
  have hM0 : (0 : ℝ) < (N : ℝ) + 1/2 := by positivity
  have hpi := Real.pi_pos
  have hi : (2 : ℝ) * i ≤ N := by exact_mod_cast (show 2 * i ≤ N by omega)
  have hir : (1 : ℝ) ≤ i := by exact_mod_cast h1
  set h := Real.pi / ((N : ℝ) + 1/2) with hh
  rw [← Real.sin_pi_div_two_sub]
  have e1 : h / 2 ≤ Real.pi / 2 - ((i : ℝ) - 1/4) * h := by
    rw [← hm]
    have := mul_le_mul_of_nonneg_right hi hhp.le
    linarith
  have e2 : Real.pi / 2 - ((i : ℝ) - 1/4) * h ≤ Real.pi / 2 := by
    have := mul_nonneg (show (0 : ℝ) ≤ (i : ℝ) - 1/4 by linarith) hhp.le
    linarith
  refine le_trans ?_ (Real.mul_le_sin (by linarith) e2)
  refine le_trans (le_of_eq ?_) (mul_le_mul_of_nonneg_left e1 (by positivity))
  rw [hh]
  field_simp

/-- One root off the middle: the result does not depend on what `pp` held. -/
theorem mesh_root (N : Nat) (hN : 1 ≤ N) (th : Nat → ℝ) (Z : LegZeros N (Real.pi / ((N : ℝ) + 1/2)) th) (eps eps' : ℝ) (he : (4/9 : ℝ) ^ 64 / 2 < eps)
    (hee : eps < eps') (heM : eps * ((N : ℝ) + 1/2) < 1) (fuel : Nat) (hf : 7 ≤ fuel) (i : Nat) (h1 : 1 ≤ i) (h2 : 2 * i < N + 1) :
    ∃ t t1 pp, (∀ pp0, meshWhile N eps fuel (gaussStart N i, 0, pp0) = some (t, t1, pp)) ∧ RootOut N th eps' i t pp ∧
      Real.cos (th i) ≤ t1 ∧ t1 ≤ gaussStart N i ∧ pp = (derivative (Spec.legendre N)).eval t1 := by
  have heps : 0 < eps := lt_trans (by positivity) he
  obtain ⟨F, rfl⟩ : ∃ F, fuel = F + 1 := ⟨fuel - 1, by omega⟩
  obtain ⟨s, hs, W⟩ := zone_exists N th Z i h1 h2
  have hM := W.M0
  have hpow : (4/9 : ℝ) ^ (2 ^ (0 + F)) / 2 < eps := by
    refine lt_of_le_of_lt ?_ he
    have : (4/9 : ℝ) ^ (2 ^ (0 + F)) ≤ (4/9) ^ 64 := pow_le_pow_of_le_one (by norm_num) (by norm_num) (by
      calc 64 = 2 ^ 6 := by norm_num
        _ ≤ 2 ^ (0 + F) := Nat.pow_le_pow_right (by norm_num) (by omega))
    linarith
  have hstart : eps < gaussStart N i := by
    refine lt_of_lt_of_le ?_ (start_ge N i h1 h2)
    rw [lt_div_iff₀ hM]
    exact heM
  obtain ⟨e1, e2⟩ := gauss_pass hN hs W _ W.rx.le le_rfl
  obtain ⟨k, t, t1, pp, hrun, inv, hd⟩ := mesh_loop_stops hN hs W eps F 0 _ _ _ ⟨W.rx.le, le_rfl, e1, e2, by
    have := W.ratio
    norm_num
    linarith⟩ hpow
  have hd' : |t - t1| < eps' := lt_of_le_of_lt hd hee
  obtain ⟨a, b, c, d, e⟩ := gauss_exit hs W eps' k t t1 pp inv hd'
  obtain ⟨w1, w2, -⟩ := gauss_exit_weight hs W eps' k t t1 pp inv hd'
  refine ⟨t, t1, pp, fun pp0 => ?_, ⟨a, b.trans inv.hi, e, w1, w2⟩, inv.lo, inv.hi, inv.pp⟩
  unfold meshWhile
  rw [if_pos (by rw [sub_zero, abs_of_pos (lt_trans heps hstart)]; exact hstart)]
  exact hrun

/-- All loops for roots off the middle. -/
theorem mesh_loops (N : Nat) (eps : ℝ) (fuel : Nat) (t p : Nat → ℝ) (is : List Nat)
    (h : ∀ i ∈ is, ∃ t1, ∀ pp0, meshWhile N eps fuel (gaussStart N i, 0, pp0) = some (t i, t1, p i)) (pp0 : ℝ) :
    meshLoops N eps fuel is pp0 = some (is.map fun i => (t i, p i)) := by
  induction is generalizing pp0 with
  | nil => rfl
  | cons i is ih =>
    obtain ⟨t1, h1⟩ := h i (by simp)
    simp only [meshLoops, h1, Option.bind_some, ih (fun j hj => h j (List.mem_cons_of_mem _ hj)), Option.map_some, List.map_cons]

/-- ... followed by the middle, whose loop is not entered. -/
theorem mesh_loops_mid (N : Nat) (eps : ℝ) (he : 0 < eps) (fuel : Nat) (t p : Nat → ℝ) (is : List Nat) (m : Nat) (hm : 2 * m = N + 1)
    (h : ∀ i ∈ is, ∃ t1, ∀ pp0, meshWhile N eps fuel (gaussStart N i, 0, pp0) = some (t i, t1, p i)) (pp0 : ℝ) :
    meshLoops N eps fuel (is ++ [m]) pp0 = some ((is.map fun i => (t i, p i)) ++ [(0, (is.map p).getLastD pp0)]) := by
  induction is generalizing pp0 with
  | nil =>
    have : meshWhile N eps fuel (gaussStart N m, 0, pp0) = some (0, 0, pp0) := by
      rw [gaussStart_middle N m hm]
      unfold meshWhile
      rw [if_neg (by simpa using he.le)]
    simp [meshLoops, this]
  | cons i is ih =>
    obtain ⟨t1, h1⟩ := h i (by simp)
    rw [List.cons_append]
    simp only [meshLoops, h1, Option.bind_some, ih (fun j hj => h j (List.mem_cons_of_mem _ hj)), Option.map_some, List.map_cons, List.cons_append,
      Option.some.injEq, List.cons.injEq, true_and]
    rw [List.getLastD_cons]

/-! ### The stores -/

theorem pairStore (N : Nat) (A B : Nat → ℝ) (x0 : Nat → ℝ) (m : Nat) (hm : m ≤ (N + 1) / 2) (k : Nat) (hk : k < N) :
    let x := (List.range m).foldl (fun (x : Nat → ℝ) k => Function.update (Function.update x k (A (k + 1))) (N - (k + 1)) (B (k + 1))) x0
    (k < m → 2 * (k + 1) ≠ N + 1 → x k = A (k + 1)) ∧ (N - (k + 1) < m → x k = B (N - k)) := by
  induction m with
  | zero => simp
  | succ m ih =>
    obtain ⟨i1, i2⟩ := ih (by omega)
    rw [List.range_succ, List.foldl_append]
    simp only [List.foldl_cons, List.foldl_nil]
    generalize (List.range m).foldl _ _ = x at i1 i2 ⊢
    constructor
    · intro hlt hne
      have h1 : k ≠ N - (m + 1) := by omega
      rw [Function.update_of_ne h1]
      by_cases h2 : k = m
      · subst h2; rw [Function.update_self]
      · rw [Function.update_of_ne h2]
        exact i1 (by omega) hne
    · intro hlt
      by_cases h1 : k = N - (m + 1)
      · rw [Function.update_apply, if_pos h1]
        congr 1
        omega
      · rw [Function.update_of_ne h1]
        have h2 : k ≠ m := by omega
        rw [Function.update_of_ne h2]
        exact i2 (by omega)

/-- For an even number of points the stored mesh is the mapped rule of the final iterates. -/
theorem mesh_even (N : Nat) (hN : 1 ≤ N) (hev : N % 2 = 0) (th : Nat → ℝ) (Z : LegZeros N (Real.pi / ((N : ℝ) + 1/2)) th) (eps eps' : ℝ)
    (he : (4/9 : ℝ) ^ 64 / 2 < eps) (hee : eps < eps') (heM : eps * ((N : ℝ) + 1/2) < 1) :
    ∃ t pp : Nat → ℝ, (∀ i, 1 ≤ i → i ≤ (N + 1) / 2 → RootOut N th eps' i (t i) (pp i)) ∧
      ∀ fuel x1 x2 pp0 x0 w0, 7 ≤ fuel → x1 ≤ x2 → meshFill N eps fuel x1 x2 pp0 x0 w0 = some (binRule x1 x2 (gaussRule N t pp (fun _ => 0) (fun _ => 0))) := by
  classical
  have H := fun fuel hf i (h1 : 1 ≤ i) (hi : i ≤ (N + 1) / 2) => mesh_root N hN th Z eps eps' he hee heM fuel hf i h1 (by omega)
  choose t t1 pp hrun hout _ _ _ using H 7 le_rfl
  set T : Nat → ℝ := fun i => if h : 1 ≤ i ∧ i ≤ (N + 1) / 2 then t i h.1 h.2 else 0 with hT
  set P : Nat → ℝ := fun i => if h : 1 ≤ i ∧ i ≤ (N + 1) / 2 then pp i h.1 h.2 else 0 with hP
  have hTi : ∀ i (h1 : 1 ≤ i) (hi : i ≤ (N + 1) / 2), T i = t i h1 hi := fun i h1 hi => by rw [hT]; simp [h1, hi]
  have hPi : ∀ i (h1 : 1 ≤ i) (hi : i ≤ (N + 1) / 2), P i = pp i h1 hi := fun i h1 hi => by rw [hP]; simp [h1, hi]
  have HR : ∀ i, 1 ≤ i → i ≤ (N + 1) / 2 → RootOut N th eps' i (T i) (P i) := fun i h1 hi => by
    rw [hTi i h1 hi, hPi i h1 hi]; exact hout i h1 hi
  refine ⟨T, P, HR, ?_⟩
  intro fuel x1 x2 pp0 x0 w0 hf hx
  have hmono : ∀ f g (s r : ℝ × ℝ × ℝ), f ≤ g → meshWhile N eps f s = some r → meshWhile N eps g s = some r := by
    intro f
    induction f with
    | zero =>
      rintro g ⟨a, b, c⟩ r hg h
      unfold meshWhile at h ⊢
      split at h
      · cases h
      · rename_i hn
        rw [if_neg hn]
        exact h
    | succ f ih =>
      rintro g ⟨a, b, c⟩ r hg h
      obtain ⟨g, rfl⟩ : ∃ g', g = g' + 1 := ⟨g - 1, by omega⟩
      unfold meshWhile at h ⊢
      split at h
      · rename_i hp
        rw [if_pos hp]
        exact ih g _ _ (by omega) h
      · rename_i hn
        rw [if_neg hn]
        exact h
  have hl := mesh_loops N eps fuel T P ((List.range ((N + 1) / 2)).map (· + 1)) (by
    intro i hi
    obtain ⟨k, hk, rfl⟩ := List.mem_map.1 hi
    have hk' := List.mem_range.1 hk
    refine ⟨t1 (k + 1) (by omega) (by omega), fun pp0 => ?_⟩
    rw [hTi (k + 1) (by omega) (by omega), hPi (k + 1) (by omega) (by omega)]
    exact hmono 7 fuel _ _ hf (hrun (k + 1) (by omega) (by omega) pp0)) pp0
  unfold meshFill
  rw [if_neg (by push Not; exact ⟨by omega, hx⟩), hl, Option.map_some]
  have hget : ∀ i, 1 ≤ i → i ≤ (N + 1) / 2 → (((List.range ((N + 1) / 2)).map (· + 1)).map fun i => (T i, P i)).getD (i - 1) (0, 0) = (T i, P i) := by
    intro i h1 hi
    rw [List.getD_eq_getElem _ _ (by simp; omega)]
    simp only [List.getElem_map, List.getElem_range]
    rw [show i - 1 + 1 = i by omega]
  generalize hs : (((List.range ((N + 1) / 2)).map (· + 1)).map fun i => (T i, P i)) = s at hget ⊢
  congr 1
  unfold binRule gaussRule
  rw [List.map_map]
  dsimp only
  refine List.map_congr_left fun k hk => ?_
  have hk' := List.mem_range.1 hk
  simp only [Function.comp]
  obtain ⟨a, b⟩ := stored_node N th Z eps' T P HR (fun _ => 0) (fun _ => 0) k hk'
  rw [a, b]
  have hn := pairStore N (fun i => 0.5 * (x2 + x1) - 0.5 * (x2 - x1) * (s.getD (i - 1) (0, 0)).1)
    (fun i => 0.5 * (x2 + x1) + 0.5 * (x2 - x1) * (s.getD (i - 1) (0, 0)).1) x0 ((N + 1) / 2) le_rfl k hk'
  have hw := pairStore N (fun i => 2 * (0.5 * (x2 - x1)) / ((1 - (s.getD (i - 1) (0, 0)).1 * (s.getD (i - 1) (0, 0)).1) * (s.getD (i - 1) (0, 0)).2 * (s.getD (i - 1) (0, 0)).2))
    (fun i => 2 * (0.5 * (x2 - x1)) / ((1 - (s.getD (i - 1) (0, 0)).1 * (s.getD (i - 1) (0, 0)).1) * (s.getD (i - 1) (0, 0)).2 * (s.getD (i - 1) (0, 0)).2)) w0 ((N + 1) / 2) le_rfl k hk'
  dsimp only at hn hw
  unfold meshNodes meshWeights
  by_cases hlt : k < (N + 1) / 2
  · simp only [if_pos hlt]
    rw [hn.1 hlt (by omega), hw.1 hlt (by omega), hget (k + 1) (by omega) (by omega)]
    unfold mapNode mapWeight gaussW
    exact Prod.ext (by dsimp only; ring) (by dsimp only; ring)
  · simp only [if_neg hlt]
    rw [hn.2 (by omega), hw.2 (by omega), hget (N - k) (by omega) (by omega)]
    unfold mapNode mapWeight gaussW
    exact Prod.ext (by dsimp only; ring) (by dsimp only; ring)

/-! ### C122 -/

theorem binRule_mapped (a b : ℝ) (l : List (ℝ × ℝ)) : binRule a b l = Spec.mapped a b l := by
  unfold binRule Spec.mapped
  refine List.map_congr_left fun p _ => ?_
  unfold mapNode mapWeight
  exact Prod.ext (by dsimp only; rw [show (0.5:ℝ) = 1/2 by norm_num]; ring) (by dsimp only; rw [show (0.5:ℝ) = 1/2 by norm_num]; ring)

theorem near_mapped {dx dw a b : ℝ} (hab : a ≤ b) {l g : List (ℝ × ℝ)} (h : Spec.RuleNear dx dw l g) :
    Spec.RuleNear ((b - a) / 2 * dx) dw (Spec.mapped a b l) (Spec.mapped a b g) := by
  unfold Spec.RuleNear Spec.mapped at *
  rw [List.forall₂_map_left_iff, List.forall₂_map_right_iff]
  refine h.imp fun x y hxy => ?_
  have hc : 0 ≤ (b - a) / 2 := by linarith
  dsimp only
  constructor
  · rw [show (b - a) / 2 * x.1 + (a + b) / 2 - ((b - a) / 2 * y.1 + (a + b) / 2) = (b - a) / 2 * (x.1 - y.1) by ring, abs_mul, abs_of_nonneg hc]
    exact mul_le_mul_of_nonneg_left hxy.1 hc
  · rw [← mul_sub, abs_mul, abs_of_nonneg hc]
    have := mul_le_mul_of_nonneg_left hxy.2 hc
    linarith

theorem mesh_eps (N : Nat) (hN7 : N ≤ 10 ^ 7) : (4/9 : ℝ) ^ 64 / 2 < 3e-14 ∧ (3e-14 : ℝ) < 3.1e-14 ∧ (3e-14 : ℝ) * ((N : ℝ) + 1/2) < 1 := by
  refine ⟨by norm_num, by norm_num, ?_⟩
  have h : (N : ℝ) ≤ 10 ^ 7 := by exact_mod_cast hN7
  clear hN7
  rw [show (3e-14:ℝ) = 3/10^14 by norm_num]
  linarith

/-- The rule behind the meshes with an even number of points. -/
theorem mesh_base (N : Nat) (hN : 1 ≤ N) (hev : N % 2 = 0) (hN7 : N ≤ 10 ^ 7) :
    ∃ l, (∀ fuel x1 x2 pp0 x0 w0, 7 ≤ fuel → x1 ≤ x2 → meshFill N 3e-14 fuel x1 x2 pp0 x0 w0 = some (Spec.mapped x1 x2 l)) ∧
      (l.map Prod.fst).Pairwise (· < ·) ∧ (∀ p ∈ l, -1 < p.1 ∧ p.1 < 1 ∧ 0 < p.2) ∧ l.length = N ∧
      ∃ g, Spec.IsGauss N g ∧ Spec.RuleNear (3e-27 * ((N : ℝ) + 1/2) ^ 2) (1e-13 * ((N : ℝ) + 1/2) ^ 2) l g := by
  obtain ⟨e1, e2, e3⟩ := mesh_eps N hN7
  obtain ⟨th, Z⟩ := legZeros_exist N
  obtain ⟨t, pp, H, hfill⟩ := mesh_even N hN hev th Z 3e-14 3.1e-14 e1 e2 e3
  obtain ⟨a, b⟩ := stored_sorted N th Z 3.1e-14 t pp H (fun _ => 0) (fun _ => 0)
  have hg := exactRule_isGauss N th Z
  refine ⟨_, fun fuel x1 x2 pp0 x0 w0 hf hx => by rw [hfill fuel x1 x2 pp0 x0 w0 hf hx, binRule_mapped], a, b, by simp [gaussRule], exactRule N th, hg, ?_⟩
  refine ruleNear_mono ?_ ?_ hg.positive (stored_near N th Z 3.1e-14 t pp H _ _)
  · exact mul_le_mul_of_nonneg_right (by norm_num) (by positivity)
  · exact mul_le_mul_of_nonneg_right (by norm_num) (by positivity)

/-- C122: for every even number of points and every interval, the routine ends after at most seven passes per root and, whatever
the uninitialised variables held, stores the Gauss-Legendre rule of that interval. -/
theorem C122_even (N : Nat) (hN : 1 ≤ N) (hev : N % 2 = 0) (hN7 : N ≤ 10 ^ 7) (x1 x2 : ℝ) (hx : x1 ≤ x2) :
    ∃ l, (∀ fuel pp0 x0 w0, 7 ≤ fuel → meshFill N 3e-14 fuel x1 x2 pp0 x0 w0 = some l) ∧
      ∃ g, Spec.IsGauss N g ∧ Spec.RuleNear ((x2 - x1) / 2 * (3e-27 * ((N : ℝ) + 1/2) ^ 2)) (1e-13 * ((N : ℝ) + 1/2) ^ 2) l (Spec.mapped x1 x2 g) := by
  obtain ⟨l, hl, -, -, -, g, G, near⟩ := mesh_base N hN hev hN7
  exact ⟨_, fun fuel pp0 x0 w0 hf => hl fuel x1 x2 pp0 x0 w0 hf hx, g, G, near_mapped hx near⟩

/-- C122: its points are strictly increasing and strictly inside the interval, its weights positive. -/
theorem C122_points (N : Nat) (hN : 1 ≤ N) (hev : N % 2 = 0) (hN7 : N ≤ 10 ^ 7) (x1 x2 : ℝ) (hx : x1 < x2) (fuel : Nat) (hf : 7 ≤ fuel)
    (pp0 : ℝ) (x0 w0 : Nat → ℝ) (l : List (ℝ × ℝ)) (h : meshFill N 3e-14 fuel x1 x2 pp0 x0 w0 = some l) :
    l.length = N ∧ (l.map Prod.fst).Pairwise (· < ·) ∧ ∀ p ∈ l, x1 < p.1 ∧ p.1 < x2 ∧ 0 < p.2 := by
  obtain ⟨b, hb, b1, b2, b3, -⟩ := mesh_base N hN hev hN7
  rw [hb fuel x1 x2 pp0 x0 w0 hf hx.le] at h
  cases h
  have hc : 0 < (x2 - x1) / 2 := by linarith
  refine ⟨by unfold Spec.mapped; rw [List.length_map, b3], ?_, ?_⟩
  · unfold Spec.mapped
    rw [List.map_map, List.pairwise_map]
    rw [List.pairwise_map] at b1
    refine b1.imp fun {p q} h => ?_
    simp only [Function.comp]
    have := mul_lt_mul_of_pos_left h hc
    linarith
  · intro p hp
    obtain ⟨q, hq, rfl⟩ := List.mem_map.1 hp
    obtain ⟨u, v, w⟩ := b2 q hq
    have := mul_lt_mul_of_pos_left u hc
    have := mul_lt_mul_of_pos_left v hc
    exact ⟨by dsimp only; linarith, by dsimp only; linarith, mul_pos hc w⟩

/-- C122: every polynomial of degree below `2N` is integrated over the interval with a small error. -/
theorem C122_integral (N : Nat) (hN : 1 ≤ N) (hev : N % 2 = 0) (hN7 : N ≤ 10 ^ 7) (x1 x2 : ℝ) (hx : x1 < x2) (fuel : Nat) (hf : 7 ≤ fuel)
    (pp0 : ℝ) (x0 w0 : Nat → ℝ) (l : List (ℝ × ℝ)) (h : meshFill N 3e-14 fuel x1 x2 pp0 x0 w0 = some l) (f : ℝ[X]) (hd : f.natDegree < 2 * N) (B K : ℝ)
    (hB : ∀ x, x1 ≤ x → x ≤ x2 → |f.eval x| ≤ B) (hK : ∀ x, x1 ≤ x → x ≤ x2 → |(derivative f).eval x| ≤ K) :
    |(l.map fun p => p.2 * f.eval p.1).sum - ∫ x in x1..x2, f.eval x| ≤
      (x2 - x1) * ((N : ℝ) + 1/2) ^ 2 * (1e-13 * B + 3e-27 * ((x2 - x1) / 2) * K) := by
  obtain ⟨b, hb, b1, b2, b3, g, G, near⟩ := mesh_base N hN hev hN7
  rw [hb fuel x1 x2 pp0 x0 w0 hf hx.le] at h
  cases h
  rw [← binRule_mapped]
  refine (near_bin N hN b2 G near x1 x2 hx f hd B K hB hK).trans_eq ?_
  ring

/-- C122: for an odd number of points (from 3) the loop of the middle point is never entered, so its weight is computed with the
derivative left by the neighbouring point: it is too small by at least a relative `1/(N+½)²`. -/
theorem C122_odd (N : Nat) (hN : 3 ≤ N) (hodd : N % 2 = 1) (hN7 : N ≤ 10 ^ 7) (x1 x2 : ℝ) (hx : x1 < x2) (fuel : Nat) (hf : 7 ≤ fuel)
    (pp0 : ℝ) (x0 w0 : Nat → ℝ) :
    ∃ l, meshFill N 3e-14 fuel x1 x2 pp0 x0 w0 = some l ∧ ∃ p ∈ l[N / 2]?, p.1 = (x1 + x2) / 2 ∧
      ∀ g, Spec.IsGauss N g → ∃ q ∈ (Spec.mapped x1 x2 g)[N / 2]?, q.1 = (x1 + x2) / 2 ∧ 0 < q.2 ∧ p.2 ≤ (1 - 1 / ((N : ℝ) + 1/2) ^ 2) * q.2 := by
  classical
  obtain ⟨e1, e2, e3⟩ := mesh_eps N hN7
  obtain ⟨th, Z⟩ := legZeros_exist N
  have hN1 : 1 ≤ N := by omega
  obtain ⟨m, hm⟩ : ∃ m, N = 2 * m + 1 := ⟨N / 2, by omega⟩
  have hm1 : 1 ≤ m := by omega
  have H := fun i (h1 : 1 ≤ i) (hi : i ≤ m) => mesh_root N hN1 th Z 3e-14 3.1e-14 e1 e2 e3 fuel hf i h1 (by omega)
  choose t t1 pp hrun hout hlo hhi hpp using H
  set T : Nat → ℝ := fun i => if h : 1 ≤ i ∧ i ≤ m then t i h.1 h.2 else 0 with hT
  set P : Nat → ℝ := fun i => if h : 1 ≤ i ∧ i ≤ m then pp i h.1 h.2 else 0 with hP
  have hTi : ∀ i (h1 : 1 ≤ i) (hi : i ≤ m), T i = t i h1 hi := fun i h1 hi => by rw [hT]; simp [h1, hi]
  have hPi : ∀ i (h1 : 1 ≤ i) (hi : i ≤ m), P i = pp i h1 hi := fun i h1 hi => by rw [hP]; simp [h1, hi]
  have hl := mesh_loops_mid N 3e-14 (by norm_num) fuel T P ((List.range m).map (· + 1)) (m + 1) (by omega) (by
    intro i hi
    obtain ⟨k, hk, rfl⟩ := List.mem_map.1 hi
    have hk' := List.mem_range.1 hk
    refine ⟨t1 (k + 1) (by omega) (by omega), fun pp0 => ?_⟩
    rw [hTi (k + 1) (by omega) (by omega), hPi (k + 1) (by omega) (by omega)]
    exact hrun (k + 1) (by omega) (by omega) pp0) pp0
  have hidx : (List.range ((N + 1) / 2)).map (· + 1) = (List.range m).map (· + 1) ++ [m + 1] := by
    rw [show (N + 1) / 2 = m + 1 by omega, List.range_succ, List.map_append]; rfl
  have hlast : (((List.range m).map (· + 1)).map P).getLastD pp0 = P m := by
    obtain ⟨m', rfl⟩ : ∃ m', m = m' + 1 := ⟨m - 1, by omega⟩
    rw [List.range_succ, List.map_append, List.map_append]
    simp
  rw [hlast] at hl
  unfold meshFill
  rw [if_neg (by push Not; exact ⟨by omega, hx.le⟩), hidx, hl, Option.map_some]
  refine ⟨_, rfl, ?_⟩
  dsimp only
  generalize hs : ((((List.range m).map (· + 1)).map fun i => (T i, P i)) ++ [((0 : ℝ), P m)]) = s
  have hget : s.getD m (0, 0) = (0, P m) := by
    rw [← hs, List.getD_eq_getElem _ _ (by simp)]
    rw [List.getElem_append_right (by simp)]
    simp
  have hNm : N / 2 = m := by omega
  rw [hNm, List.getElem?_map, List.getElem?_range (by omega), Option.map_some]
  have hn := pairStore N (fun i => 0.5 * (x2 + x1) - 0.5 * (x2 - x1) * (s.getD (i - 1) (0, 0)).1)
    (fun i => 0.5 * (x2 + x1) + 0.5 * (x2 - x1) * (s.getD (i - 1) (0, 0)).1) x0 ((N + 1) / 2) le_rfl m (by omega)
  have hw := pairStore N (fun i => 2 * (0.5 * (x2 - x1)) / ((1 - (s.getD (i - 1) (0, 0)).1 * (s.getD (i - 1) (0, 0)).1) * (s.getD (i - 1) (0, 0)).2 * (s.getD (i - 1) (0, 0)).2))
    (fun i => 2 * (0.5 * (x2 - x1)) / ((1 - (s.getD (i - 1) (0, 0)).1 * (s.getD (i - 1) (0, 0)).1) * (s.getD (i - 1) (0, 0)).2 * (s.getD (i - 1) (0, 0)).2)) w0 ((N + 1) / 2) le_rfl m (by omega)
  dsimp only at hn hw
  have hn2 := hn.2 (by omega)
  have hw2 := hw.2 (by omega)
  rw [show N - m - 1 = m by omega, hget] at hn2 hw2
  unfold meshNodes meshWeights
  refine ⟨_, rfl, ?_, ?_⟩
  · dsimp only
    rw [hn2]
    norm_num
    ring
  · intro g G
    dsimp only
    rw [hw2]
    have hgeq : g = exactRule N th := isGauss_unique N _ _ G (exactRule_isGauss N th Z)
    have hmid := middle_zero N th Z (m + 1) (by omega) (by omega)
    have hroot := Z.root (m + 1) (by omega) (by omega)
    rw [hmid] at hroot
    have hgq : (Spec.mapped x1 x2 g)[m]? = some ((x2 - x1) / 2 * -0 + (x1 + x2) / 2, (x2 - x1) / 2 * gaussW 0 ((derivative (Spec.legendre N)).eval 0)) := by
      rw [hgeq]
      unfold Spec.mapped exactRule
      rw [List.getElem?_map, List.getElem?_map, List.getElem?_range (by omega), Option.map_some, Option.map_some, hmid]
    rw [hgq]
    have hdne := legendre_deriv_ne N 0 hroot
    have hwp := gaussW_pos 0 ((derivative (Spec.legendre N)).eval 0) (by norm_num) hdne
    have hc : 0 < (x2 - x1) / 2 := by linarith
    refine ⟨_, rfl, by dsimp only; ring, mul_pos hc hwp, ?_⟩
    dsimp only
    -- the two derivatives
    obtain ⟨s', hs', W⟩ := zone_exists N th Z m hm1 (by omega)
    have hPm : P m = (derivative (Spec.legendre N)).eval (t1 m hm1 le_rfl) := by rw [hPi m hm1 le_rfl]; exact hpp m hm1 le_rfl
    have hmono := W.deriv_mono (Real.cos (th m)) (t1 m hm1 le_rfl) le_rfl (hlo m hm1 le_rfl) (hhi m hm1 le_rfl)
    have hpos := W.A_pos
    simp only [derivative_C_mul, eval_mul, eval_C] at hmono hpos
    rw [← hPm] at hmono
    have hsq : ((derivative (Spec.legendre N)).eval (Real.cos (th m))) ^ 2 ≤ (P m) ^ 2 := by
      have h3 := pow_le_pow_left₀ hpos.le hmono 2
      rw [mul_pow, mul_pow] at h3
      exact le_of_mul_le_mul_left h3 (by positivity)
    have hson : (sonin N).eval 0 ≤ (sonin N).eval (Real.cos (th m)) := sonin_mono N (Set.mem_Ici.2 le_rfl) (Set.mem_Ici.2 W.r0.le) W.r0.le
    rw [sonin_eval, sonin_eval, hroot, Z.root m hm1 (by omega)] at hson
    have hr := W.sq_lt (Real.cos (th m)) le_rfl W.rx.le
    have hM0 := W.M0
    have hrM : 1 / ((N : ℝ) + 1/2) ≤ Real.cos (th m) := by
      have hb := (Z.loc m hm1 (by omega)).2
      have hhp := LegZeros.step_pos N
      have hmu := LegZeros.step_mul N
      have hmem := Z.mem m hm1 (by omega)
      have hpi := Real.pi_pos
      have hmr : (N : ℝ) = 2 * m + 1 := by rw [hm]; push_cast; ring
      rw [← Real.sin_pi_div_two_sub]
      set h := Real.pi / ((N : ℝ) + 1/2) with hh
      have e1 : h / 2 ≤ Real.pi / 2 - th m := by
        rw [← hmu, hmr]
        linarith
      refine le_trans ?_ (Real.mul_le_sin (by linarith) (by linarith [hmem.1]))
      refine le_trans (le_of_eq ?_) (mul_le_mul_of_nonneg_left e1 (by positivity))
      rw [hh]
      field_simp
    have hr2 : 1 / ((N : ℝ) + 1/2) ^ 2 ≤ Real.cos (th m) ^ 2 := by
      have := pow_le_pow_left₀ (by positivity) hrM 2
      rwa [div_pow, one_pow] at this
    generalize Real.cos (th m) = r at *
    generalize (derivative (Spec.legendre N)).eval r = d at *
    generalize hd0 : (derivative (Spec.legendre N)).eval 0 = d0 at *
    have hd02 : 0 < d0 ^ 2 := by positivity
    have hkey : d0 ^ 2 ≤ (1 - r ^ 2) * P m ^ 2 := by
      have := mul_le_mul_of_nonneg_left hsq hr.2.le
      norm_num at hson
      linarith
    have hP2 : 0 < P m ^ 2 := by
      by_contra hcon
      have : P m ^ 2 = 0 := le_antisymm (not_lt.1 hcon) (sq_nonneg _)
      rw [this] at hkey
      linarith
    unfold gaussW
    have eL : 2 * (0.5 * (x2 - x1)) / ((1 - (0 : ℝ) * 0) * P m * P m) = (x2 - x1) / P m ^ 2 := by norm_num; ring
    have eR : (1 - 1 / ((N : ℝ) + 1/2) ^ 2) * ((x2 - x1) / 2 * (2 / ((1 - (0 : ℝ) * 0) * d0 * d0))) = (1 - 1 / ((N : ℝ) + 1/2) ^ 2) * ((x2 - x1) / d0 ^ 2) := by
      norm_num; left; ring
    rw [eL, eR, ← mul_div_assoc, div_le_div_iff₀ hP2 hd02]
    have h8 : d0 ^ 2 ≤ (1 - 1 / ((N : ℝ) + 1/2) ^ 2) * P m ^ 2 := hkey.trans (mul_le_mul_of_nonneg_right (by linarith) hP2.le)
    have := mul_le_mul_of_nonneg_left h8 (show 0 ≤ x2 - x1 by linarith)
    linarith

/-- C122: with one point the weight is made from the uninitialised variable. -/
theorem C122_one (x1 x2 : ℝ) (hx : x1 ≤ x2) (fuel : Nat) (pp0 : ℝ) (x0 w0 : Nat → ℝ) :
    meshFill 1 3e-14 fuel x1 x2 pp0 x0 w0 = some [((x1 + x2) / 2, (x2 - x1) / pp0 ^ 2)] := by
  have hl := mesh_loops_mid 1 3e-14 (by norm_num) fuel (fun _ => 0) (fun _ => 0) [] 1 (by norm_num) (by simp) pp0
  unfold meshFill
  rw [if_neg (by push Not; exact ⟨by norm_num, hx⟩), show (List.range ((1 + 1) / 2)).map (· + 1) = [] ++ [1] from rfl, hl]
  simp [meshNodes, meshWeights, List.range_succ]
  constructor
  · norm_num; ring
  · norm_num; ring

/-- The meshes the program sets up: 96 angles, and 50 and 30 points for the two-loop integrals. -/
example (pp0 z : ℝ) (hz : z ≤ 0.95) (x0 w0 : Nat → ℝ) : (∃ l, meshFill 96 3e-14 7 (-1) 1 pp0 x0 w0 = some l ∧ l.length = 96 ∧ ∀ p ∈ l, |p.1| < 1) ∧
    (∃ l, meshFill 50 3e-14 7 0 1 pp0 x0 w0 = some l) ∧ (∃ l, meshFill 30 3e-14 7 z 1 pp0 x0 w0 = some l) ∧ ∃ l, meshFill 30 3e-14 7 z 0.95 pp0 x0 w0 = some l := by
  refine ⟨?_, ?_, ?_, ?_⟩
  · obtain ⟨l, hl, -⟩ := C122_even 96 (by norm_num) (by norm_num) (by norm_num) (-1) 1 (by norm_num)
    have h := hl 7 pp0 x0 w0 le_rfl
    obtain ⟨a, -, c⟩ := C122_points 96 (by norm_num) (by norm_num) (by norm_num) (-1) 1 (by norm_num) 7 le_rfl pp0 x0 w0 l h
    exact ⟨l, h, a, fun p hp => abs_lt.2 ⟨(c p hp).1, (c p hp).2.1⟩⟩
  · obtain ⟨l, hl, -⟩ := C122_even 50 (by norm_num) (by norm_num) (by norm_num) 0 1 (by norm_num)
    exact ⟨l, hl 7 pp0 x0 w0 le_rfl⟩
  · obtain ⟨l, hl, -⟩ := C122_even 30 (by norm_num) (by norm_num) (by norm_num) z 1 (by norm_num at hz; linarith)
    exact ⟨l, hl 7 pp0 x0 w0 le_rfl⟩
  · obtain ⟨l, hl, -⟩ := C122_even 30 (by norm_num) (by norm_num) (by norm_num) z 0.95 hz
    exact ⟨l, hl 7 pp0 x0 w0 le_rfl⟩

/-- Three points on [0,2]: the middle weight is at most 45/49 of the true one. -/
example : ∃ l, meshFill 3 3e-14 7 0 2 0 (fun _ => 0) (fun _ => 0) = some l := by
  obtain ⟨l, h, -⟩ := C122_odd 3 le_rfl rfl (by norm_num) 0 2 (by norm_num) 7 le_rfl 0 (fun _ => 0) (fun _ => 0)
  exact ⟨l, h⟩

end TicTac
