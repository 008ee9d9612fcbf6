import Verif.Lemmas.SexGrens
/-! The backward recursion of `SEXN` starts high enough. -/
noncomputable section
namespace TicTac

/-- `∫ log(t/y) dt` up to `s`. -/
def rise (y s : ℝ) : ℝ := s * (Real.log s - 1 - Real.log y)

theorem rise_tangent (y : ℝ) {s t : ℝ} (hs : 0 ≤ s) (ht : 0 < t) : rise y t + (Real.log t - Real.log y) * (s - t) ≤ rise y s := by
  unfold rise
  rcases hs.eq_or_lt with h | h
  · rw [← h]; nlinarith
  · have h1 := Real.log_le_sub_one_of_pos (div_pos ht h)
    rw [Real.log_div ht.ne' h.ne'] at h1
    have h2 : s * (Real.log t - Real.log s) ≤ s * (t / s - 1) := mul_le_mul_of_nonneg_left h1 hs
    rw [show s * (t / s - 1) = t - s by field_simp] at h2
    nlinarith

theorem damp_le_exp {y : ℝ} (hy : 0 < y) {i : Nat} (hi : 1 ≤ i) (k : Nat) (hk : i - 1 ≤ k) : damp y i k ≤ Real.exp (rise y ((i - 1 : Nat) : ℝ) - rise y k) := by
  obtain ⟨d, rfl⟩ := Nat.exists_eq_add_of_le hk
  clear hk
  induction d with
  | zero =>
    unfold damp
    rw [Finset.Ico_eq_empty (by omega), Finset.prod_empty]
    simp
  | succ d ih =>
    have e : damp y i (i - 1 + (d + 1)) = damp y i (i - 1 + d) * (y / ((i - 1 + d + 1 : Nat) : ℝ)) := by
      unfold damp
      rw [show i - 1 + (d + 1) + 1 = (i - 1 + d + 1) + 1 by omega, Finset.prod_Ico_succ_top (by omega)]
    rw [e]
    have p : (0 : ℝ) < ((i - 1 + d + 1 : Nat) : ℝ) := by positivity
    have h := rise_tangent y (s := ((i - 1 + d : Nat) : ℝ)) (by positivity) p
    have hf : y / ((i - 1 + d + 1 : Nat) : ℝ) ≤ Real.exp (rise y ((i - 1 + d : Nat) : ℝ) - rise y ((i - 1 + d + 1 : Nat) : ℝ)) := by
      rw [← Real.exp_log (div_pos hy p), Real.log_div hy.ne' p.ne']
      refine Real.exp_le_exp.2 ?_
      have : ((i - 1 + d : Nat) : ℝ) - ((i - 1 + d + 1 : Nat) : ℝ) = -1 := by push_cast; ring
      rw [this] at h
      linarith
    have := mul_le_mul ih hf (by positivity) (Real.exp_pos _).le
    rw [← Real.exp_add] at this
    refine this.trans (le_of_eq ?_)
    congr 1
    rw [show i - 1 + (d + 1) = i - 1 + d + 1 by omega]
    ring

theorem rise_below (y : ℝ) {s t : ℝ} (hs : 0 ≤ s) (hst : s ≤ t) : rise y s ≤ max 0 (rise y t) := by
  rcases hs.eq_or_lt with h | h
  · rw [← h]; unfold rise; simp
  · rcases le_total (Real.log y) (Real.log s) with g | g
    · have := rise_tangent y (s := t) (by linarith) h
      refine le_trans ?_ (le_max_right _ _)
      nlinarith
    · have := rise_tangent y (s := 0) le_rfl h
      refine le_trans ?_ (le_max_left _ _)
      unfold rise at this ⊢
      nlinarith

/-- Above a bound `2.718 y w` the recursion is high enough. -/
theorem rise_above {y w m : ℝ} (hy : 0 < y) (hw : 1.4 ≤ w) (hm : w * 2.718 * y - 1 ≤ m) (hm0 : 0 ≤ m) : 2.718 * y * (w * (Real.log w - 2e-4)) - Real.log w - 1 ≤ rise y m := by
  have w0 : 0 < w := by linarith
  have g0 : 0 < w * 2.718 * y := by positivity
  have h := rise_tangent y hm0 g0
  have lg : Real.log (w * 2.718 * y) = Real.log w + Real.log 2.718 + Real.log y := by
    rw [Real.log_mul (by positivity) hy.ne', Real.log_mul w0.ne' (by norm_num)]
  have le1 : Real.log 2.718 ≤ 1 := by
    rw [Real.log_le_iff_le_exp (by norm_num)]
    have := Real.exp_one_gt_d9
    linarith
  have le2 : 1 - 2e-4 ≤ Real.log 2.718 := by
    rw [Real.le_log_iff_exp_le (by norm_num), Real.exp_sub]
    have a := Real.exp_one_lt_d9
    have b := Real.add_one_le_exp (2e-4 : ℝ)
    rw [div_le_iff₀ (Real.exp_pos _)]
    nlinarith
  have lw : 0 ≤ Real.log w := Real.log_nonneg (by linarith)
  have r1 : rise y (w * 2.718 * y) = w * 2.718 * y * (Real.log w + Real.log 2.718 - 1) := by
    unfold rise; rw [lg]; ring
  have r2 : 2.718 * y * (w * (Real.log w - 2e-4)) ≤ rise y (w * 2.718 * y) := by
    rw [r1]
    have : w * 2.718 * y * (Real.log w - 2e-4) ≤ w * 2.718 * y * (Real.log w + Real.log 2.718 - 1) := mul_le_mul_of_nonneg_left (by linarith) g0.le
    linarith
  rw [lg] at h
  have : -(Real.log w + Real.log 2.718) ≤ (Real.log w + Real.log 2.718 + Real.log y - Real.log y) * (m - w * 2.718 * y) := by nlinarith
  linarith

theorem exp_lower (n d : Nat) (hd : 0 < d) {b : ℝ} (hb : 0 ≤ b) (h : b ^ d ≤ (2.718 : ℝ) ^ n) : b ≤ Real.exp (n / d) := by
  have e : Real.exp ((n : ℝ) / d) ^ d = Real.exp 1 ^ n := by
    rw [← Real.exp_nat_mul, ← Real.exp_nat_mul]
    congr 1
    field_simp
  have h1 : (2.718 : ℝ) ^ n ≤ Real.exp 1 ^ n := pow_le_pow_left₀ (by norm_num) (by linarith [Real.exp_one_gt_d9]) n
  by_contra hc
  have := pow_lt_pow_left₀ (not_le.1 hc) (Real.exp_pos _).le hd.ne'
  rw [e] at this
  linarith

/-- The first bound, when only it is needed. -/
theorem start_one {y m : ℝ} (h0 : 0.36 ≤ y) (h1 : y ≤ 16.7) (hm : sexGrens (9.197 / y) * 2.718 * y - 1 ≤ m) (hm0 : 0 ≤ m) : 16.12 ≤ rise y m := by
  have hy : 0 < y := by linarith
  have v0 : 0.5 ≤ 9.197 / y := by rw [le_div_iff₀ hy]; linarith
  have hv : 9.197 / y ≤ 25.6 := by rw [div_le_iff₀ hy]; linarith
  have e : 2.718 * y * (9.197 / y) = 2.718 * 9.197 := by field_simp
  have lb : Real.log 25.6 ≤ 3.5 := by
    rw [Real.log_le_iff_le_exp (by norm_num)]
    have := exp_lower 7 2 (by norm_num) (b := 25.6) (by norm_num) (by norm_num)
    norm_num at this ⊢
    exact this
  rcases le_or_gt (9.197 / y) 23 with h | h
  · obtain ⟨a, b, c⟩ := grens_small v0 h
    have k := rise_above hy a hm hm0
    have c' := mul_le_mul_of_nonneg_left c (show 0 ≤ 2.718 * y by linarith)
    have lw := Real.log_le_log (show 0 < sexGrens (9.197 / y) by linarith) (show sexGrens (9.197 / y) ≤ 25.6 by linarith)
    have : 2.718 * y * (0.95 * (9.197 / y)) = 0.95 * (2.718 * 9.197) := by rw [← e]; ring
    norm_num at *
    linarith
  · obtain ⟨a, b, c⟩ := grens_big h (by linarith)
    have k := rise_above hy a hm hm0
    have c' := mul_le_mul_of_nonneg_left c (show 0 ≤ 2.718 * y by linarith)
    have lw := Real.log_le_log (show 0 < sexGrens (9.197 / y) by linarith) (show sexGrens (9.197 / y) ≤ 25.6 by linarith)
    have : 2.718 * y * (0.99 * (9.197 / y)) = 0.99 * (2.718 * 9.197) := by rw [← e]; ring
    norm_num at *
    linarith

/-- The second bound. -/
theorem start_two {y m : ℝ} {K : Nat} (h0 : 1e-3 < y) (h1 : y ≤ 16.7) (k2 : 2 ≤ K) (k30 : K ≤ 35) (hr : 0 < rise y ((K - 1 : Nat) : ℝ))
    (hm : sexGrens (K * Real.log ((K + 1) / 2.718 / y) / 2.718 / y + 8.829 / y) * 2.718 * y - 1 ≤ m) (hm0 : 0 ≤ m) : 16.12 + rise y ((K - 1 : Nat) : ℝ) ≤ rise y m := by
  have hy : 0 < y := by linarith [show (0 : ℝ) < 1e-3 by norm_num]
  have hK2 : (2 : ℝ) ≤ K := by exact_mod_cast k2
  have hK30 : (K : ℝ) ≤ 35 := by exact_mod_cast k30
  have hK1 : ((K - 1 : Nat) : ℝ) = K - 1 := by push_cast [Nat.cast_sub (show 1 ≤ K by omega)]; ring
  rw [hK1] at hr ⊢
  set Λ := Real.log ((K + 1) / 2.718 / y) with hΛ
  have le1 : Real.log 2.718 ≤ 1 := by
    rw [Real.log_le_iff_le_exp (by norm_num)]
    have := Real.exp_one_gt_d9
    linarith
  have eΛ : Λ = Real.log (K + 1) - Real.log 2.718 - Real.log y := by
    rw [hΛ, Real.log_div (by positivity) hy.ne', Real.log_div (by positivity) (by norm_num)]
  have hμ : Real.log ((K : ℝ) - 1) - 1 - Real.log y ≤ Λ := by
    rw [eΛ]
    have := Real.log_le_log (show (0 : ℝ) < K - 1 by linarith) (show (K : ℝ) - 1 ≤ K + 1 by linarith)
    linarith
  have hμ0 : 0 < Real.log ((K : ℝ) - 1) - 1 - Real.log y := by
    unfold rise at hr
    by_contra h
    nlinarith
  have Λ0 : 0 < Λ := by linarith
  have hF : rise y ((K : ℝ) - 1) ≤ (K - 1) * Λ := mul_le_mul_of_nonneg_left hμ (by linarith)
  have hexp : Real.exp Λ = (K + 1) / 2.718 / y := Real.exp_log (by positivity)
  set v := (K : ℝ) * Λ / 2.718 / y + 8.829 / y with hv
  have ev : 2.718 * y * v = K * Λ + 2.718 * 8.829 := by rw [hv]; field_simp
  have hΛ9 : Λ ≤ 9.5 := by
    rw [hΛ, Real.log_le_iff_le_exp (by positivity), div_le_iff₀ hy, div_le_iff₀ (by norm_num)]
    have := exp_lower 19 2 (by norm_num) (b := 13300) (by norm_num) (by norm_num)
    norm_num at this h0 ⊢
    nlinarith
  have v0 : 0.5 ≤ v := by
    by_contra h
    have := mul_lt_mul_of_pos_left (not_le.1 h) (show 0 < 2.718 * y by linarith)
    rw [ev] at this
    nlinarith
  have v1 : v ≤ 1200000 := by
    by_contra h
    have := mul_lt_mul_of_pos_left (not_le.1 h) (show 0 < 2.718 * y by linarith)
    rw [ev] at this
    have hp : (K : ℝ) * Λ ≤ 35 * 9.5 := mul_le_mul hK30 hΛ9 Λ0.le (by norm_num)
    linarith only [this, hp, h0]
  rcases le_or_gt v 23 with h | h
  · obtain ⟨a, b, c⟩ := grens_small v0 h
    have k := rise_above hy a hm hm0
    have c' := mul_le_mul_of_nonneg_left c (show 0 ≤ 2.718 * y by linarith)
    have lw : Real.log (sexGrens v) ≤ 2.5 := by
      rw [Real.log_le_iff_le_exp (by linarith)]
      have := exp_lower 5 2 (by norm_num) (b := 12) (by norm_num) (by norm_num)
      norm_num at this b ⊢
      linarith
    have e : 2.718 * y * (0.95 * v) = 0.95 * (K * Λ + 2.718 * 8.829) := by rw [← ev]; ring
    have hy2 : 0.38 ≤ y := by
      by_contra hh
      have : 2.718 * y * v ≤ 2.718 * 0.38 * 23 := by
        have := not_le.1 hh
        nlinarith
      rw [ev] at this
      have hp : 0 ≤ (K : ℝ) * Λ := by positivity
      linarith only [this, hp]
    have hΛ3 : Λ ≤ 3.75 := by
      rw [hΛ, Real.log_le_iff_le_exp (by positivity), div_le_iff₀ hy, div_le_iff₀ (by norm_num)]
      have := exp_lower 15 4 (by norm_num) (b := 42) (by norm_num) (by norm_num)
      norm_num at this
      have h2 : 42 * 0.38 ≤ Real.exp 3.75 * y := mul_le_mul (by norm_num; linarith only [this]) hy2 (by norm_num) (Real.exp_pos _).le
      linarith only [h2, hK30]
    have hKΛ : (K : ℝ) * Λ ≤ 35 * Λ := mul_le_mul_of_nonneg_right hK30 Λ0.le
    have hF' : rise y ((K : ℝ) - 1) ≤ K * Λ - Λ := by linarith only [hF]
    rw [e] at c'
    linarith only [k, c', hF', lw, hKΛ, hΛ3, Λ0]
  · obtain ⟨a, b, c⟩ := grens_big h v1
    have k := rise_above hy a hm hm0
    have c' := mul_le_mul_of_nonneg_left c (show 0 ≤ 2.718 * y by linarith)
    have e : 2.718 * y * (0.99 * v) = 0.99 * (K * Λ + 2.718 * 8.829) := by rw [← ev]; ring
    have hvΛ : v ≤ (Λ + 8) * Real.exp Λ := by
      rw [hexp]
      have : v = (K * Λ + 2.718 * 8.829) / (2.718 * y) := by rw [← ev]; field_simp
      rw [this, div_le_iff₀ (by positivity), show (Λ + 8) * ((K + 1) / 2.718 / y) * (2.718 * y) = (Λ + 8) * (K + 1) by field_simp]
      linarith only [Λ0, hK2, mul_nonneg Λ0.le (show (0 : ℝ) ≤ K by linarith only [hK2])]
    have lw : Real.log (sexGrens v) ≤ Λ + (2.3 + Λ / 16) := by
      have l1 := Real.log_le_log (show 0 < sexGrens v by linarith) (b.trans hvΛ)
      rw [Real.log_mul (by positivity) (Real.exp_pos _).ne', Real.log_exp] at l1
      have l2 := Real.log_le_sub_one_of_pos (show 0 < (Λ + 8) / 16 by positivity)
      rw [Real.log_div (by positivity) (by norm_num), show (16 : ℝ) = 2 ^ 4 by norm_num, Real.log_pow] at l2
      have l3 := Real.log_two_lt_d9
      push_cast at l2
      linarith only [l1, l2, l3]
    have hKΛ : (K : ℝ) * Λ ≤ 35 * Λ := mul_le_mul_of_nonneg_right hK30 Λ0.le
    have hF' : rise y ((K : ℝ) - 1) ≤ K * Λ - Λ := by linarith only [hF]
    rw [e] at c'
    linarith only [k, c', hF', lw, hKΛ, hΛ9, Λ0]

theorem log_1e7 : Real.log 1e7 ≤ 16.12 := by
  have h : Real.log (1e7 : ℝ) = 7 * (Real.log 2 + Real.log 5) := by
    rw [← Real.log_mul (by norm_num) (by norm_num), show (1e7 : ℝ) = (2 * 5) ^ 7 by norm_num, Real.log_pow]; norm_num
  have l5 : Real.log 5 ≤ 1.6095 := by
    have h1 : Real.log ((5 : ℝ) ^ 28) ≤ Real.log ((2 : ℝ) ^ 65 * (1.011)) := Real.log_le_log (by norm_num) (by norm_num)
    rw [Real.log_mul (by norm_num) (by norm_num), Real.log_pow, Real.log_pow] at h1
    have h2 := Real.log_le_sub_one_of_pos (show (0 : ℝ) < 1.011 by norm_num)
    have := Real.log_two_lt_d9
    norm_num at *
    linarith
  rw [h]
  have := Real.log_two_lt_d9
  norm_num at *
  linarith

/-- The start of the backward recursion. -/
theorem start_gen {y : ℝ} {K : Nat} (y1 : 1e-3 < y) (y2 : y ≤ 16.7) (k2 : 2 ≤ K) (k30 : K ≤ 35) : K < sexStart y K ∧ ∀ i, 1 ≤ i → i ≤ K → damp y i (sexStart y K - 1) ≤ 1e-7 := by
  have hy : 0 < y := by linarith [show (0 : ℝ) < 1e-3 by norm_num]
  -- the start lies above both bounds
  have hM : sexGrens (9.197 / y) * 2.718 * y < sexStart y K ∧ sexGrens (K * Real.log ((K + 1) / 2.718 / y) / 2.718 / y + 8.829 / y) * 2.718 * y < sexStart y K := by
    unfold sexStart
    dsimp only
    rw [if_neg (show ¬ y < 1e-4 by norm_num at *; linarith)]
    generalize sexGrens (9.197 / y) * 2.718 * y = g1
    generalize sexGrens (K * Real.log ((K + 1) / 2.718 / y) / 2.718 / y + 8.829 / y) * 2.718 * y = g2
    have f1 : g1 < ((Nat.max ⌊g1 + 1⌋₊ ⌊g2 + 1⌋₊ : Nat) : ℝ) := by
      have a := Nat.lt_floor_add_one (g1 + 1)
      have b : ((⌊g1 + 1⌋₊ : Nat) : ℝ) ≤ ((Nat.max ⌊g1 + 1⌋₊ ⌊g2 + 1⌋₊ : Nat) : ℝ) := by exact_mod_cast Nat.le_max_left _ _
      linarith
    have f2 : g2 < ((Nat.max ⌊g1 + 1⌋₊ ⌊g2 + 1⌋₊ : Nat) : ℝ) := by
      have a := Nat.lt_floor_add_one (g2 + 1)
      have b : ((⌊g2 + 1⌋₊ : Nat) : ℝ) ≤ ((Nat.max ⌊g1 + 1⌋₊ ⌊g2 + 1⌋₊ : Nat) : ℝ) := by exact_mod_cast Nat.le_max_right _ _
      linarith
    generalize Nat.max ⌊g1 + 1⌋₊ ⌊g2 + 1⌋₊ = mm at *
    split_ifs
    · push_cast; constructor <;> linarith
    · exact ⟨f1, f2⟩
  have hodd := sexStart_odd y K
  obtain ⟨M, hMdef⟩ : ∃ M, sexStart y K = M + 1 := ⟨sexStart y K - 1, by omega⟩
  rw [hMdef] at hM ⊢
  rw [Nat.add_sub_cancel]
  push_cast at hM
  have hbig : 16.12 + max 0 (rise y ((K - 1 : Nat) : ℝ)) ≤ rise y M := by
    rcases le_or_gt (rise y ((K - 1 : Nat) : ℝ)) 0 with h | h
    · rw [max_eq_left h, add_zero]
      refine start_one ?_ y2 (by linarith [hM.1]) (by positivity)
      -- y ≥ (K-1)/e
      have hK1 : (1 : ℝ) ≤ ((K - 1 : Nat) : ℝ) := by exact_mod_cast (show 1 ≤ K - 1 by omega)
      unfold rise at h
      have hl : Real.log ((K - 1 : Nat) : ℝ) - 1 - Real.log y ≤ 0 := by
        by_contra hh
        have := mul_pos (show (0 : ℝ) < ((K - 1 : Nat) : ℝ) by linarith) (not_le.1 hh)
        linarith
      have h0 := Real.log_nonneg hK1
      have : -1 ≤ Real.log y := by linarith
      rw [Real.le_log_iff_exp_le hy, Real.exp_neg] at this
      have e1 := Real.exp_one_lt_d9
      have : (1 : ℝ) ≤ y * Real.exp 1 := by
        have e0 := Real.exp_pos 1
        rwa [inv_le_iff_one_le_mul₀ e0] at this
      norm_num at *
      nlinarith
    · rw [max_eq_right h.le]
      exact start_two y1 y2 k2 k30 h (by linarith [hM.2]) (by positivity)
  have hKM : K < M + 1 := by
    by_contra hh
    have := rise_below y (s := (M : ℝ)) (t := ((K - 1 : Nat) : ℝ)) (by positivity) (by exact_mod_cast (show M ≤ K - 1 by omega))
    linarith only [this, hbig]
  refine ⟨hKM, fun i h1 h2 => ?_⟩
  refine (damp_le_exp hy h1 M (by omega)).trans ?_
  have hb := rise_below y (s := ((i - 1 : Nat) : ℝ)) (t := ((K - 1 : Nat) : ℝ)) (by positivity) (by exact_mod_cast (show i - 1 ≤ K - 1 by omega))
  rw [show (1e-7 : ℝ) = Real.exp (-Real.log 1e7) by rw [Real.exp_neg, Real.exp_log (by norm_num)]; norm_num]
  refine Real.exp_le_exp.2 ?_
  have := log_1e7
  linarith

/-- The start of the backward recursion, for every call in range. -/
theorem start_ok {c : SexCall} (hc : c.Regular) : StartOk c.y (tabLen c.x c.j) 1e-7 := by
  intro hch
  have hy : 0 < c.y := by linarith [hc.y1, show (0 : ℝ) < 1e-3 by norm_num]
  have k2 : 2 ≤ tabLen c.x c.j := by unfold tabLen; split_ifs <;> omega
  have k30 : tabLen c.x c.j ≤ 30 := by have := hc.j1; unfold tabLen; split_ifs <;> omega
  have y2 : c.y ≤ 16.7 := by
    by_cases h5 : 5 < c.x
    · have := hc.yx
      norm_num
      nlinarith
    · have kk : tabLen c.x c.j ≤ 10 := by have := hc.j1; unfold tabLen; rw [if_neg h5]; omega
      have kR : (tabLen c.x c.j : ℝ) ≤ 10 := by exact_mod_cast kk
      have k0 : (0 : ℝ) ≤ tabLen c.x c.j := by positivity
      unfold sexCheck at hch
      generalize (tabLen c.x c.j : ℝ) = K at *
      have hl : Real.log (1 + (K + 1) / c.y) ≤ (K + 1) / c.y := by
        have := Real.log_le_sub_one_of_pos (show 0 < 1 + (K + 1) / c.y by positivity)
        linarith
      have h1 : (c.y + K + 0.5) * Real.log (1 + (K + 1) / c.y) ≤ (c.y + K + 0.5) * ((K + 1) / c.y) := mul_le_mul_of_nonneg_left hl (by positivity)
      have h2 : (c.y + K + 0.5) * ((K + 1) / c.y) = K + 1 + (K + 0.5) * (K + 1) / c.y := by field_simp; ring
      rw [h2] at h1
      have h3 : (K + 0.5) * (K + 1) ≤ 10.5 * 11 := mul_le_mul (by linarith) (by linarith) (by linarith) (by norm_num)
      by_contra hh
      have hh := not_le.1 hh
      have h4 : (K + 0.5) * (K + 1) / c.y ≤ 7 := by
        rw [div_le_iff₀ hy]
        norm_num at *
        linarith
      norm_num at *
      linarith
  exact start_gen hc.y1 y2 k2 (by omega)

end TicTac
end
