import Verif.Lemmas.SmlLem
/-! Errors of `SMLLEX`. -/
noncomputable section
namespace TicTac
open Polynomial Spec Set MeasureTheory

/-- The sum behind `ERN`. -/
def smlSum (y : ℝ) (n : Nat) : ℝ := ∑ i ∈ Finset.Ico n 20, y ^ i * smlTerm n i / (i.factorial : ℝ)

theorem truncInt_abs (r : ℝ) : |(truncInt r : ℝ)| ≤ |r| := by
  unfold truncInt
  split_ifs with h
  · rw [abs_of_nonneg h, abs_of_nonneg (by exact_mod_cast Int.floor_nonneg.2 h)]
    exact Int.floor_le r
  · have h' : r < 0 := not_le.1 h
    have h2 : (⌈r⌉ : ℝ) ≤ 0 := by exact_mod_cast Int.ceil_nonpos.2 h'.le
    rw [abs_of_neg h', abs_of_nonpos h2]
    linarith [Int.le_ceil r]

theorem smlTerm_abs (n k : Nat) : |smlTerm n k| ≤ 3 ^ n := by
  unfold smlTerm
  refine (Finset.abs_sum_le_sum_abs _ _).trans ?_
  have h : ∑ i ∈ Finset.range 13, |legTab n i| ≤ 3 ^ n := by
    have e : ∑ i ∈ Finset.range (n + 1), |legTab n i| = ∑ i ∈ Finset.range (n + 1 + 13), |legTab n i| := by
      refine Finset.sum_subset (Finset.range_mono (by omega)) fun i _ hi => ?_
      rw [Finset.mem_range] at hi
      rw [legTab_zero n i (by omega), abs_zero]
    refine le_trans ?_ (legTab_abs n)
    rw [e]
    exact Finset.sum_le_sum_of_subset_of_nonneg (Finset.range_mono (by omega)) fun i _ _ => abs_nonneg _
  refine (Finset.sum_le_sum fun i _ => ?_).trans h
  split_ifs
  · rw [abs_mul]
    have h1 : |(1 : ℝ) / ((i + k + 1 : Nat) : ℝ)| ≤ 1 := by
      rw [abs_of_pos (by positivity), div_le_one (by positivity)]
      push_cast
      linarith [show (0 : ℝ) ≤ i by positivity, show (0 : ℝ) ≤ k by positivity]
    exact (mul_le_of_le_one_right (abs_nonneg _) h1).trans (truncInt_abs _)
  · simp

theorem smlSum_abs {y : ℝ} (h0 : 0 ≤ y) (h1 : y ≤ 1e-3) {n : Nat} (hn : 2 ≤ n) : |smlSum y n| ≤ 0.51 * (3 * y) ^ n := by
  unfold smlSum
  have hy1 : y < 1 := lt_of_le_of_lt h1 (by norm_num)
  have step : ∀ i ∈ Finset.Ico n 20, |y ^ i * smlTerm n i / (i.factorial : ℝ)| ≤ 3 ^ n * (y ^ i * (1 / 2)) := by
    intro i hi
    have hi := Finset.mem_Ico.1 hi
    rw [abs_div, abs_mul, abs_of_nonneg (pow_nonneg h0 i), Nat.abs_cast]
    have hf : (2 : ℝ) ≤ (i.factorial : ℝ) := by
      have : Nat.factorial 2 ≤ i.factorial := Nat.factorial_le (by omega)
      exact_mod_cast this
    rw [div_le_iff₀ (by linarith)]
    have a := mul_le_mul_of_nonneg_left (smlTerm_abs n i) (pow_nonneg h0 i)
    have b : 0 ≤ y ^ i * 3 ^ n := by positivity
    nlinarith
  refine (Finset.abs_sum_le_sum_abs _ _).trans ((Finset.sum_le_sum step).trans ?_)
  rw [← Finset.mul_sum, ← Finset.sum_mul]
  have geo : ∑ i ∈ Finset.Ico n 20, y ^ i ≤ y ^ n * 1.01 := by
    rw [Finset.sum_Ico_eq_sum_range]
    simp only [pow_add]
    rw [← Finset.mul_sum]
    refine mul_le_mul_of_nonneg_left ?_ (pow_nonneg h0 n)
    refine ((summable_geometric_of_lt_one h0 hy1).sum_le_tsum _ (fun i _ => pow_nonneg h0 i)).trans ?_
    rw [tsum_geometric_of_lt_one h0 hy1, inv_le_comm₀ (by linarith) (by norm_num)]
    norm_num at h1 ⊢
    linarith
  rw [mul_pow]
  have : (0 : ℝ) < 3 ^ n := by positivity
  have hyn := pow_nonneg h0 n
  have := mul_le_mul_of_nonneg_left geo this.le
  nlinarith

theorem exp_part_err {y z : ℝ} (h0 : 0 ≤ y) (h1 : y ≤ 1) (hz : |z| ≤ 1) {N : Nat} (hN : 0 < N) : |Real.exp (y * z) - expPart (y * z) N| ≤ y ^ N * ((N + 1 : Nat) / ((N.factorial : ℝ) * N)) := by
  have ht : |y * z| ≤ y := by rw [abs_mul, abs_of_nonneg h0]; exact mul_le_of_le_one_right h0 hz
  have := Real.exp_bound (ht.trans h1) hN
  refine this.trans ?_
  exact mul_le_mul_of_nonneg_right (pow_le_pow_left₀ (abs_nonneg _) ht N) (by positivity)

theorem mean_err {f g : ℝ → ℝ} (hf : Continuous f) (hg : Continuous g) {e : ℝ} (h : ∀ z, |z| ≤ 1 → |f z - g z| ≤ e) :
    |1 / 2 * (∫ z in (-1 : ℝ)..1, f z) - 1 / 2 * ∫ z in (-1 : ℝ)..1, g z| ≤ e := by
  rw [← mul_sub, ← intervalIntegral.integral_sub (hf.intervalIntegrable _ _) (hg.intervalIntegrable _ _), abs_mul]
  have := intervalIntegral.norm_integral_le_of_norm_le_const (a := (-1 : ℝ)) (b := 1) (f := fun z => f z - g z) (C := e) fun z hz => by
    rw [uIoc_of_le (by norm_num)] at hz
    exact h z (abs_le.2 ⟨by linarith [hz.1], hz.2⟩)
  rw [Real.norm_eq_abs] at this
  norm_num at this ⊢
  linarith

theorem expPart_cont (y : ℝ) (N : Nat) : Continuous fun z => expPart (y * z) N := by unfold expPart; fun_prop

/-- Mean of a power times the Taylor polynomial. -/
theorem pow_expPart (y : ℝ) (n N : Nat) : 1 / 2 * ∫ z in (-1 : ℝ)..1, z ^ n * expPart (y * z) N = ∑ k ∈ Finset.range N, y ^ k / (k.factorial : ℝ) * (if (n + k) % 2 = 0 then 1 / ((n + k + 1 : Nat) : ℝ) else 0) := by
  unfold expPart
  simp only [Finset.mul_sum, pow_factor]
  rw [intervalIntegral.integral_finsetSum (fun k _ => ((continuous_pow _).const_mul _).intervalIntegrable _ _), Finset.mul_sum]
  refine Finset.sum_congr rfl fun k _ => ?_
  rw [intervalIntegral.integral_const_mul, ← pow_mean]
  ring

theorem wave_small {y : ℝ} (h0 : 0 ≤ y) (h1 : y ≤ 1) {n : Nat} (hn : 0 < n) : |1 / 2 * ∫ z in (-1 : ℝ)..1, (legendre n).eval z * Real.exp (y * z)| ≤ y ^ n * ((n + 1 : Nat) / ((n.factorial : ℝ) * n)) := by
  have orth : ∫ z in (-1 : ℝ)..1, (legendre n).eval z * expPart (y * z) n = 0 := by
    unfold expPart
    simp only [Finset.mul_sum]
    rw [intervalIntegral.integral_finsetSum (f := fun (k : Nat) (z : ℝ) => (legendre n).eval z * ((y * z) ^ k / (k.factorial : ℝ))) (fun k _ => (Continuous.mul (legendre n).continuous (by fun_prop)).intervalIntegrable _ _)]
    refine Finset.sum_eq_zero fun k hk => ?_
    have h := legendre_orth_deg n (X ^ k) (Or.inr (by rw [natDegree_X_pow]; exact Finset.mem_range.1 hk))
    unfold pint at h
    have e : ∫ z in (-1 : ℝ)..1, (legendre n).eval z * ((y * z) ^ k / (k.factorial : ℝ)) = ∫ z in (-1 : ℝ)..1, y ^ k / (k.factorial : ℝ) * (legendre n * X ^ k).eval z := by
      refine intervalIntegral.integral_congr fun z _ => ?_
      beta_reduce
      rw [eval_mul, eval_pow, eval_X, mul_pow]; ring
    rw [e, intervalIntegral.integral_const_mul, h, mul_zero]
  have := mean_err (f := fun z => (legendre n).eval z * Real.exp (y * z)) (g := fun z => (legendre n).eval z * expPart (y * z) n) (Continuous.mul (legendre n).continuous (by fun_prop))
    (Continuous.mul (legendre n).continuous (expPart_cont y n)) (e := y ^ n * ((n + 1 : Nat) / ((n.factorial : ℝ) * n))) (fun z hz => by
      rw [← mul_sub, abs_mul]
      exact (mul_le_of_le_one_left (abs_nonneg _) (legendre_abs_le_one n z hz)).trans (exp_part_err h0 h1 hz hn))
  rw [orth, mul_zero, sub_zero] at this
  exact this

theorem smlTerm_zero (k : Nat) : smlTerm 0 k = if k % 2 = 0 then 1 / ((k + 1 : Nat) : ℝ) else 0 := by
  unfold smlTerm
  rw [Finset.sum_eq_single 0]
  · by_cases h : k % 2 = 0
    · rw [if_pos h, if_pos ⟨by omega, by simp [legTab, truncInt]⟩]
      simp [legTab, truncInt]
    · rw [if_neg h, if_neg (by omega)]
  · intro b _ hb
    rw [if_neg]
    rintro ⟨_, h⟩
    exact h (by simp [legTab, hb, truncInt])
  · simp

theorem smlTerm_one (k : Nat) : smlTerm 1 k = if (1 + k) % 2 = 0 then 1 / ((1 + k + 1 : Nat) : ℝ) else 0 := by
  unfold smlTerm
  rw [Finset.sum_eq_single 1]
  · by_cases h : (1 + k) % 2 = 0
    · rw [if_pos h, if_pos ⟨h, by simp [legTab, truncInt]⟩]
      simp [legTab, truncInt]
    · rw [if_neg h, if_neg (by omega)]
  · intro b _ hb
    rw [if_neg]
    rintro ⟨_, h⟩
    exact h (by simp [legTab, hb, truncInt])
  · simp

theorem smlTerm_two (k : Nat) : smlTerm 2 k = if k % 2 = 0 then 1 / ((2 + k + 1 : Nat) : ℝ) else 0 := by
  have t2 : truncInt (legTab 2 2) = 1 := by
    have : legTab 2 2 = 3 / 2 := by norm_num [legTab]
    rw [this, truncInt, if_pos (by norm_num), Int.floor_eq_iff]; norm_num
  have t1 : truncInt (legTab 2 1) = 0 := by
    have : legTab 2 1 = 0 := by norm_num [legTab]
    rw [this, truncInt, if_pos le_rfl, Int.floor_zero]
  have t0 : truncInt (legTab 2 0) = 0 := by
    have : legTab 2 0 = -1 / 2 := by norm_num [legTab]
    rw [this, truncInt, if_neg (by norm_num), Int.ceil_eq_iff]; norm_num
  unfold smlTerm
  rw [Finset.sum_eq_single 2]
  · by_cases h : k % 2 = 0
    · rw [if_pos h, t2, if_pos ⟨by omega, by norm_num⟩]
      norm_num
    · rw [if_neg h, if_neg (by omega)]
  · intro b _ hb
    rw [if_neg]
    rintro ⟨_, h⟩
    apply h
    rcases Nat.lt_or_ge b 2 with h2 | h2
    · interval_cases b
      · exact t0
      · exact t1
    · rw [legTab_zero 2 b (by omega), truncInt, if_pos le_rfl, Int.floor_zero]
  · simp

/-- Waves 0 and 1 of `ERN`. -/
theorem smlSum_low {y : ℝ} (h0 : 0 ≤ y) (h1 : y ≤ 1) {n : Nat} (hn : n ≤ 1) : |smlSum y n - 1 / 2 * ∫ z in (-1 : ℝ)..1, (legendre n).eval z * Real.exp (y * z)| ≤ y ^ 20 := by
  have e : smlSum y n = 1 / 2 * ∫ z in (-1 : ℝ)..1, z ^ n * expPart (y * z) 20 := by
    rw [pow_expPart]
    unfold smlSum
    rcases Nat.le_one_iff_eq_zero_or_eq_one.1 hn with rfl | rfl
    · rw [Nat.Ico_zero_eq_range]
      refine Finset.sum_congr rfl fun k _ => ?_
      rw [smlTerm_zero, zero_add]; ring
    · rw [Finset.range_eq_Ico, Finset.sum_eq_sum_Ico_succ_bot (show 0 < 20 by norm_num)]
      simp only [smlTerm_one]
      norm_num
      refine Finset.sum_congr rfl fun k _ => ?_
      split_ifs <;> ring
  have hp : ∀ z : ℝ, (legendre n).eval z = z ^ n := by
    intro z
    rcases Nat.le_one_iff_eq_zero_or_eq_one.1 hn with rfl | rfl
    · rw [legendre_zero]; simp
    · rw [legendre_one]; simp
  rw [e]
  simp only [hp]
  refine (mean_err (f := fun z => z ^ n * expPart (y * z) 20) (g := fun z => z ^ n * Real.exp (y * z)) (Continuous.mul (by fun_prop) (expPart_cont y 20)) (by fun_prop) fun z hz => ?_)
  rw [← mul_sub, abs_mul, abs_sub_comm (expPart _ _)]
  have a : |z ^ n| ≤ 1 := by rw [abs_pow]; exact pow_le_one₀ (abs_nonneg _) hz
  refine (mul_le_of_le_one_left (abs_nonneg _) a).trans ((exp_part_err h0 h1 hz (by norm_num)).trans ?_)
  refine mul_le_of_le_one_right (pow_nonneg h0 _) ?_
  rw [div_le_one (by positivity)]
  norm_num [Nat.factorial]

/-- The higher waves of `ERN`: of the order of the value itself. -/
theorem smlSum_high {y : ℝ} (h0 : 0 ≤ y) (h1 : y ≤ 1e-3) {n : Nat} (hn : 2 ≤ n) : |smlSum y n - 1 / 2 * ∫ z in (-1 : ℝ)..1, (legendre n).eval z * Real.exp (y * z)| ≤ (3 * y) ^ n := by
  have a := smlSum_abs h0 h1 hn
  have b := wave_small h0 (h1.trans (by norm_num)) (n := n) (by omega)
  have hc : ((n + 1 : Nat) / ((n.factorial : ℝ) * n)) ≤ 1 := by
    rw [div_le_one (by positivity)]
    have hf : (2 : ℝ) ≤ (n.factorial : ℝ) := by
      have : Nat.factorial 2 ≤ n.factorial := Nat.factorial_le hn
      exact_mod_cast this
    have : (2 : ℝ) ≤ n := by exact_mod_cast hn
    push_cast; nlinarith
  have hyn := pow_nonneg h0 n
  have b2 := b.trans (mul_le_of_le_one_right hyn hc)
  have h3 : 9 * y ^ n ≤ (3 * y) ^ n := by
    rw [mul_pow]
    refine mul_le_mul_of_nonneg_right ?_ hyn
    calc (9 : ℝ) = 3 ^ 2 := by norm_num
      _ ≤ 3 ^ n := pow_le_pow_right₀ (by norm_num) hn
  refine (abs_sub _ _).trans ?_
  linarith

theorem legendre_two (z : ℝ) : (legendre 2).eval z = (3 * z ^ 2 - 1) / 2 := by
  rw [legendre_eval_bonnet 0, legendre_zero, legendre_one]
  norm_num; ring

theorem exp_cubic {y z : ℝ} (h0 : 0 ≤ y) (h1 : y ≤ 1) (hz : |z| ≤ 1) : |Real.exp (y * z) - (1 + y * z + (y * z) ^ 2 / 2)| ≤ y ^ 3 * (2 / 9) := by
  have h := exp_part_err h0 h1 hz (N := 3) (by norm_num)
  unfold expPart at h
  norm_num [Finset.sum_range_succ, Nat.factorial] at h ⊢
  exact h

/-- Wave 2 of `ERN` is half as large again as it should be. -/
theorem smlSum_two {y : ℝ} (h0 : 0 < y) (h1 : y ≤ 1e-3) : 0 < 1 / 2 * ∫ z in (-1 : ℝ)..1, (legendre 2).eval z * Real.exp (y * z) ∧ 1.49 * (1 / 2 * ∫ z in (-1 : ℝ)..1, (legendre 2).eval z * Real.exp (y * z)) ≤ smlSum y 2 := by
  have low : y ^ 2 / 10 ≤ smlSum y 2 := by
    have := Finset.single_le_sum (f := fun i : Nat => y ^ i * smlTerm 2 i / (i.factorial : ℝ)) (s := Finset.Ico 2 20) (fun i _ => by
      rw [smlTerm_two]; split_ifs <;> positivity) (Finset.mem_Ico.2 ⟨le_rfl, by norm_num⟩ : 2 ∈ Finset.Ico 2 20)
    refine le_trans (le_of_eq ?_) this
    rw [smlTerm_two]
    norm_num [Nat.factorial]
    ring
  have e2 : 1 / 2 * ∫ z in (-1 : ℝ)..1, (legendre 2).eval z * (1 + y * z + (y * z) ^ 2 / 2) = y ^ 2 / 15 := by
    simp only [legendre_two]
    have : ∀ z : ℝ, (3 * z ^ 2 - 1) / 2 * (1 + y * z + (y * z) ^ 2 / 2) = (3 * y ^ 2 / 4) * z ^ 4 + (3 * y / 2) * z ^ 3 + (3 / 2 - y ^ 2 / 4) * z ^ 2 + (-(y / 2)) * z ^ 1 + (-(1 / 2)) := by intro z; ring
    simp only [this]
    rw [intervalIntegral.integral_add (by apply Continuous.intervalIntegrable; fun_prop) (by apply Continuous.intervalIntegrable; fun_prop),
      intervalIntegral.integral_add (by apply Continuous.intervalIntegrable; fun_prop) (by apply Continuous.intervalIntegrable; fun_prop),
      intervalIntegral.integral_add (by apply Continuous.intervalIntegrable; fun_prop) (by apply Continuous.intervalIntegrable; fun_prop),
      intervalIntegral.integral_add (by apply Continuous.intervalIntegrable; fun_prop) (by apply Continuous.intervalIntegrable; fun_prop)]
    simp only [intervalIntegral.integral_const_mul, integral_pow, intervalIntegral.integral_const]
    norm_num
    ring
  have h := mean_err (f := fun z => (legendre 2).eval z * Real.exp (y * z)) (g := fun z => (legendre 2).eval z * (1 + y * z + (y * z) ^ 2 / 2)) (Continuous.mul (legendre 2).continuous (by fun_prop))
    (Continuous.mul (legendre 2).continuous (by fun_prop)) (e := y ^ 3 * (2 / 9)) (fun z hz => by
      rw [← mul_sub, abs_mul]
      exact (mul_le_of_le_one_left (abs_nonneg _) (legendre_abs_le_one 2 z hz)).trans (exp_cubic h0.le (h1.trans (by norm_num)) hz))
  rw [e2] at h
  obtain ⟨ha, hb⟩ := abs_le.1 h
  have y2 : 0 < y ^ 2 := by positivity
  have y3 : y ^ 3 * (2 / 9) ≤ y ^ 2 * 0.00023 := by
    have : y ^ 3 = y ^ 2 * y := by ring
    rw [this, mul_assoc]
    refine mul_le_mul_of_nonneg_left ?_ y2.le
    norm_num at h1 ⊢; linarith
  norm_num at y3
  constructor
  · linarith
  · norm_num
    linarith

theorem legQ_two_lower {x : ℝ} (hx : 2 ≤ x) : 2 / (15 * x ^ 3) ≤ legQ 2 x := by
  obtain ⟨z0, z1, z2⟩ := zeta_facts (show 1 < x by linarith)
  have lower : 1 / (2 * x) ≤ 1 / (x + Real.sqrt (x * x - 1)) := by
    refine one_div_le_one_div_of_le (by positivity) ?_
    have : Real.sqrt (x * x - 1) ≤ x := by
      rw [Real.sqrt_le_left (by linarith)]; nlinarith
    linarith
  set ζ := 1 / (x + Real.sqrt (x * x - 1)) with hζ
  have z3 : ζ ≤ 1 / 2 := z1.trans (one_div_le_one_div_of_le (by norm_num) hx)
  rw [legQ_series (by linarith) z0 (by linarith) z2 2]
  have := (q_summable z0.le (by linarith) 2 3).sum_le_tsum (Finset.range 1) (fun k _ => mul_nonneg (qCoef_pos 2 k).le (by positivity))
  rw [Finset.sum_range_one] at this
  have q0 : qCoef 2 0 = 16 / 15 := by norm_num [qCoef, hypPre, hypCoef, Finset.prod_range_succ]
  rw [q0] at this
  refine le_trans ?_ this
  have hp : (1 / (2 * x)) ^ 3 ≤ ζ ^ 3 := pow_le_pow_left₀ (by positivity) lower 3
  have e : 2 / (15 * x ^ 3) = 16 / 15 * (1 / (2 * x)) ^ 3 := by field_simp; norm_num
  rw [e]
  simpa using hp

theorem two_shift {x : ℝ} (hx : 1 < x) (m : Nat) : 1 / 2 * (∫ z in (-1 : ℝ)..1, (legendre 2).eval z * z ^ (m + 1) / (x - z)) = x * (1 / 2 * ∫ z in (-1 : ℝ)..1, (legendre 2).eval z * z ^ m / (x - z)) - 1 / 2 * ∫ z in (-1 : ℝ)..1, (legendre 2).eval z * z ^ m := by
  have i0 := legQ_cont hx (fun z => (legendre 2).eval z * z ^ m) ((legendre 2).continuous.mul (by fun_prop))
  have ic : IntervalIntegrable (fun z => (legendre 2).eval z * z ^ m) volume (-1) 1 := ((legendre 2).continuous.mul (by fun_prop)).intervalIntegrable _ _
  have e : ∫ z in (-1 : ℝ)..1, (legendre 2).eval z * z ^ (m + 1) / (x - z) = ∫ z in (-1 : ℝ)..1, (x * ((legendre 2).eval z * z ^ m / (x - z)) - (legendre 2).eval z * z ^ m) := by
    refine intervalIntegral.integral_congr fun z hz => ?_
    rw [uIcc_of_le (by norm_num)] at hz
    have hz' : x - z ≠ 0 := (by linarith [hz.2] : 0 < x - z).ne'
    beta_reduce
    field_simp
    ring
  rw [e, intervalIntegral.integral_sub (i0.const_mul _) ic, intervalIntegral.integral_const_mul]
  ring

theorem two_low (m : Nat) (hm : m < 2) : ∫ z in (-1 : ℝ)..1, (legendre 2).eval z * z ^ m = 0 := by
  have h := legendre_orth_deg 2 (X ^ m) (Or.inr (by rw [natDegree_X_pow]; exact hm))
  unfold pint at h
  simpa [eval_mul] using h

theorem legRem_two {x y : ℝ} (hx : 2 ≤ x) (h0 : 0 < y) (h1 : y ≤ 1e-3) : 0.49 * (y * x) ^ 2 * legQ 2 x ≤ legRem 2 x y := by
  have hx1 : 1 < x := by linarith
  have m2 : 1 / 2 * (∫ z in (-1 : ℝ)..1, (legendre 2).eval z * z ^ 2 / (x - z)) = x ^ 2 * legQ 2 x := by
    have a := two_shift hx1 1
    have b := two_shift hx1 0
    rw [two_low 1 (by norm_num)] at a
    rw [two_low 0 (by norm_num)] at b
    unfold legQ
    simp only [pow_zero, mul_one, Nat.reduceAdd] at a b ⊢
    rw [a, b]; ring
  have i2 := legQ_cont hx1 (fun z => (legendre 2).eval z * z ^ 2) ((legendre 2).continuous.mul (by fun_prop))
  have i3 := legQ_cont hx1 (fun z => (legendre 2).eval z * (Real.exp (y * z) - (1 + y * z + (y * z) ^ 2 / 2))) ((legendre 2).continuous.mul (by fun_prop))
  have e : ∫ z in (-1 : ℝ)..1, (legendre 2).eval z * (Real.exp (y * z) - 1 - y * z) / (x - z) =
      ∫ z in (-1 : ℝ)..1, (y ^ 2 / 2 * ((legendre 2).eval z * z ^ 2 / (x - z)) + (legendre 2).eval z * (Real.exp (y * z) - (1 + y * z + (y * z) ^ 2 / 2)) / (x - z)) := by
    refine intervalIntegral.integral_congr fun z _ => ?_
    beta_reduce
    ring
  have rest : |1 / 2 * ∫ z in (-1 : ℝ)..1, (legendre 2).eval z * (Real.exp (y * z) - (1 + y * z + (y * z) ^ 2 / 2)) / (x - z)| ≤ y ^ 3 * (2 / 9) / (x - 1) := by
    rw [abs_mul]
    have h : ‖∫ z in (-1 : ℝ)..1, (legendre 2).eval z * (Real.exp (y * z) - (1 + y * z + (y * z) ^ 2 / 2)) / (x - z)‖ ≤ y ^ 3 * (2 / 9) / (x - 1) * |1 - (-1)| := by
      refine intervalIntegral.norm_integral_le_of_norm_le_const fun z hz => ?_
      rw [uIoc_of_le (by norm_num)] at hz
      have hz1 : |z| ≤ 1 := abs_le.2 ⟨by linarith [hz.1], hz.2⟩
      rw [Real.norm_eq_abs, abs_div, abs_of_pos (show 0 < x - z by linarith [hz.2]), abs_mul]
      have h2 := (mul_le_of_le_one_left (abs_nonneg (Real.exp (y * z) - (1 + y * z + (y * z) ^ 2 / 2))) (legendre_abs_le_one 2 z hz1)).trans (exp_cubic h0.le (h1.trans (by norm_num)) hz1)
      exact div_le_div₀ (by positivity) h2 (by linarith) (by linarith [hz.2])
    rw [Real.norm_eq_abs] at h
    norm_num at h ⊢
    linarith
  have er : legRem 2 x y = y ^ 2 / 2 * (x ^ 2 * legQ 2 x) + 1 / 2 * ∫ z in (-1 : ℝ)..1, (legendre 2).eval z * (Real.exp (y * z) - (1 + y * z + (y * z) ^ 2 / 2)) / (x - z) := by
    unfold legRem
    rw [e, intervalIntegral.integral_add (i2.const_mul _) i3, intervalIntegral.integral_const_mul, ← m2]
    ring
  rw [er]
  have hl := legQ_two_lower hx
  have hm : 2 * y ^ 2 / (15 * x) ≤ y ^ 2 * x ^ 2 * legQ 2 x := by
    have := mul_le_mul_of_nonneg_left hl (show 0 ≤ y ^ 2 * x ^ 2 by positivity)
    refine le_trans (le_of_eq ?_) this
    field_simp
  have hc : y ^ 3 * (2 / 9) / (x - 1) ≤ 0.01 * (2 * y ^ 2 / (15 * x)) := by
    rw [div_le_iff₀ (by linarith)]
    have hx' : x / 2 ≤ x - 1 := by linarith
    have y2 : 0 < y ^ 2 := by positivity
    have h5 : 0.01 * (2 * y ^ 2 / (15 * x)) * (x / 2) = 0.01 * y ^ 2 / 15 := by field_simp
    have h6 : 0.01 * (2 * y ^ 2 / (15 * x)) * (x / 2) ≤ 0.01 * (2 * y ^ 2 / (15 * x)) * (x - 1) := mul_le_mul_of_nonneg_left hx' (by positivity)
    rw [h5] at h6
    refine le_trans ?_ h6
    have : y ^ 3 = y ^ 2 * y := by ring
    rw [this, mul_assoc]
    have h7 : y * (2 / 9) ≤ 0.01 / 15 := by norm_num at h1 ⊢; linarith
    have := mul_le_mul_of_nonneg_left h7 y2.le
    linarith
  have := (abs_le.1 rest).1
  rw [mul_pow]
  norm_num at hc ⊢
  linarith

end TicTac
end
