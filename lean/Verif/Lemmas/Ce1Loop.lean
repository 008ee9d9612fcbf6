import Verif.Lemmas.Ce1
/-! The two loops of `CE1`. -/
noncomputable section
namespace TicTac
open Set MeasureTheory Filter Topology

/-- The series at small arguments. -/
def eiSum (n : Nat) (x : ℝ) : ℝ := -ceGam - Real.log x - ∑ k ∈ Finset.range n, (-x) ^ (k + 1) / ((k + 1 : ℕ) * (k + 1).factorial)

theorem eiSum_succ (n : Nat) (x : ℝ) : eiSum (n + 1) x = eiSum n x - (-x) ^ (n + 1) / ((n + 1 : ℕ) * (n + 1).factorial) := by
  rw [eiSum, Finset.sum_range_succ, eiSum]; ring

theorem eiSum_deriv (n : Nat) {x : ℝ} (hx : 0 < x) : HasDerivAt (eiSum n) (-(∑ k ∈ Finset.range (n + 1), (-x) ^ k / k.factorial) / x) x := by
  induction n with
  | zero =>
    have h := (Real.hasDerivAt_log hx.ne').const_sub (-ceGam)
    refine (h.congr_of_eventuallyEq (Eventually.of_forall fun t => by simp [eiSum])).congr_deriv ?_
    simp [neg_div]
  | succ n ih =>
    have h1 : HasDerivAt (fun t : ℝ => (-t) ^ (n + 1) / (((n + 1 : ℕ) : ℝ) * (n + 1).factorial)) ((((n + 1 : ℕ) : ℝ) * (-x) ^ n * (-1)) / (((n + 1 : ℕ) : ℝ) * (n + 1).factorial)) x :=
      (((hasDerivAt_neg x).pow (n + 1)).div_const _)
    have := ih.sub h1
    refine (this.congr_of_eventuallyEq (Eventually.of_forall fun t => ?_)).congr_deriv ?_
    · rw [eiSum_succ]; rfl
    · rw [Finset.sum_range_succ _ (n + 1), pow_succ]
      have h2 : ((n + 1 : ℕ) : ℝ) ≠ 0 := by positivity
      have h3 : ((n + 1).factorial : ℝ) ≠ 0 := by positivity
      have h4 := hx.ne'
      field_simp
      ring

theorem eiSum_step (n m : Nat) (hn : 1 ≤ n) {x : ℝ} (h0 : 0 < x) (h1 : x ≤ 1) : |eiSum n x - eiSum (n + m) x| ≤ x ^ (n + 1) / (n + 1).factorial := by
  induction m generalizing n with
  | zero => simp; positivity
  | succ m ih =>
    have e := ih (n + 1) (by omega)
    rw [show n + 1 + m = n + (m + 1) by ring] at e
    have e1 : |eiSum n x - eiSum (n + 1) x| = x ^ (n + 1) / ((n + 1 : ℕ) * (n + 1).factorial) := by
      rw [eiSum_succ, sub_sub_cancel, abs_div, abs_pow, abs_neg, abs_of_pos h0, abs_of_pos (by positivity)]
    have tri := abs_sub_le (eiSum n x) (eiSum (n + 1) x) (eiSum (n + (m + 1)) x)
    have b1 : x ^ (n + 1) / ((n + 1 : ℕ) * (n + 1).factorial) ≤ x ^ (n + 1) / (n + 1).factorial * (1 / 2) := by
      rw [mul_comm ((n + 1 : ℕ) : ℝ), ← div_div, div_eq_mul_inv (x ^ (n + 1) / _)]
      refine mul_le_mul_of_nonneg_left ?_ (by positivity)
      rw [one_div]
      refine inv_anti₀ (by norm_num) ?_
      have : (1 : ℝ) ≤ n := by exact_mod_cast hn
      push_cast; linarith
    have b2 : x ^ (n + 1 + 1) / (n + 1 + 1).factorial ≤ x ^ (n + 1) / (n + 1).factorial * (1 / 2) := by
      rw [Nat.factorial_succ (n + 1), pow_succ]
      push_cast
      rw [mul_comm ((n : ℝ) + 1 + 1), mul_div_mul_comm]
      refine mul_le_mul_of_nonneg_left ?_ (by positivity)
      have : (1 : ℝ) ≤ n := by exact_mod_cast hn
      rw [div_le_div_iff₀ (by positivity) (by norm_num)]
      linarith
    linarith

/-- The value at 1. -/
def eiQ (n : Nat) : ℚ := -0.577215664901532861 - ∑ k ∈ Finset.range n, (-1 : ℚ) ^ (k + 1) / ((k + 1 : ℕ) * (k + 1).factorial)
def expQ (n : Nat) : ℚ := ∑ k ∈ Finset.range n, (-1) ^ k / k.factorial

theorem eiQ_cast (n : Nat) : eiSum n 1 = ((eiQ n : ℚ) : ℝ) := by
  simp only [eiSum, eiQ, ceGam, Real.log_one]; push_cast; norm_num

theorem exp_neg_one : |Real.exp (-1) - ((expQ 20 : ℚ) : ℝ)| ≤ 1e-18 := by
  have h := Real.exp_bound (x := -1) (by norm_num) (n := 20) (by norm_num)
  have e : ((expQ 20 : ℚ) : ℝ) = ∑ m ∈ Finset.range 20, (-1 : ℝ) ^ m / m.factorial := by simp [expQ]
  rw [e]
  refine h.trans ?_
  norm_num [Nat.factorial]

theorem small_at_one : |eiSum 20 1 - ei1 1| ≤ 2.5e-13 := by
  have hA := pieceA (x := ((1 : ℚ) : ℝ)) (by norm_num) (by norm_num)
  rw [quot_cast] at hA
  set r : ℚ := hornerQ ceAP 1 / hornerQ ceAQ 1 with hr
  have j : |eiQ 20 - expQ 20 * r| ≤ 7e-14 := by rw [hr]; decide +kernel
  have rb : |r| ≤ 1 := by rw [hr]; decide +kernel
  have j' : |((eiQ 20 : ℚ) : ℝ) - expQ 20 * r| ≤ ((7e-14 : ℚ) : ℝ) := by exact_mod_cast j
  have rb' : |(r : ℝ)| ≤ 1 := by exact_mod_cast rb
  have hx := exp_neg_one
  rw [eiQ_cast]
  have e1 : Real.exp (-1) * Real.exp 1 = 1 := by rw [← Real.exp_add]; simp
  have e2 : Real.exp (-1) ≤ 0.37 := by
    have h := Real.exp_one_gt_d9
    nlinarith [Real.exp_pos (-1)]
  have e0 := Real.exp_pos (-1)
  have hA' : |(r : ℝ) - Real.exp 1 * ei1 1| ≤ 4.7e-13 := by simpa using hA
  generalize Real.exp (-1) = E' at *
  generalize Real.exp 1 = E at *
  have d : ((eiQ 20 : ℚ) : ℝ) - ei1 1 = (((eiQ 20 : ℚ) : ℝ) - expQ 20 * r) - (E' - expQ 20) * r + E' * (r - E * ei1 1) := by linear_combination (ei1 1) * e1
  rw [d]
  have t1 : |(E' - ((expQ 20 : ℚ) : ℝ)) * r| ≤ 1e-18 := by
    rw [abs_mul]
    nlinarith [abs_nonneg (r : ℝ), abs_nonneg (E' - ((expQ 20 : ℚ) : ℝ))]
  have t2 : |E' * (r - E * ei1 1)| ≤ 0.37 * 4.7e-13 := by
    rw [abs_mul, abs_of_pos e0]
    exact mul_le_mul e2 hA' (abs_nonneg _) (by norm_num)
  refine (abs_add_le _ _).trans ((add_le_add (abs_sub _ _) le_rfl).trans ?_)
  refine (add_le_add (add_le_add j' t1) t2).trans ?_
  norm_num

theorem small_sum {x : ℝ} (h0 : 0 < x) (h1 : x ≤ 1) : |eiSum 20 x - ei1 x| ≤ 2.6e-13 := by
  have hD : ∀ t ∈ Icc x 1, HasDerivWithinAt (fun t => eiSum 20 t - ei1 t) ((Real.exp (-t) - ∑ k ∈ Finset.range (20 + 1), (-t) ^ k / k.factorial) / t) (Icc x 1) t := by
    intro t ht
    have t0 : 0 < t := by linarith [ht.1]
    have := (eiSum_deriv 20 t0).sub (ei1_deriv t0)
    exact (this.congr_deriv (by ring)).hasDerivWithinAt
  have hb : ∀ t ∈ Icc x 1, ‖(Real.exp (-t) - ∑ k ∈ Finset.range (20 + 1), (-t) ^ k / k.factorial) / t‖ ≤ 1e-18 := by
    intro t ht
    have t0 : 0 < t := by linarith [ht.1]
    have h := Real.exp_bound (x := -t) (by rw [abs_neg, abs_of_pos t0]; exact ht.2) (n := 20 + 1) (by norm_num)
    rw [Real.norm_eq_abs, abs_div, abs_of_pos t0, div_le_iff₀ t0]
    refine h.trans ?_
    rw [abs_neg, abs_of_pos t0, pow_succ]
    have : t ^ 20 ≤ 1 := pow_le_one₀ t0.le ht.2
    have h3 : (((20 + 1).succ : ℕ) : ℝ) / (((20 + 1).factorial : ℕ) * ((20 + 1 : ℕ) : ℝ)) ≤ 1e-18 := by norm_num [Nat.factorial]
    calc t ^ 20 * t * ((((20 + 1).succ : ℕ) : ℝ) / (((20 + 1).factorial : ℕ) * ((20 + 1 : ℕ) : ℝ))) ≤ 1 * t * 1e-18 := by gcongr
      _ = 1e-18 * t := by ring
  have := (convex_Icc x 1).norm_image_sub_le_of_norm_hasDerivWithin_le hD hb (left_mem_Icc.2 h1) (right_mem_Icc.2 h1)
  rw [Real.norm_eq_abs, Real.norm_eq_abs, abs_of_nonneg (by linarith : (0 : ℝ) ≤ 1 - x)] at this
  have h2 := small_at_one
  rw [abs_le] at this h2 ⊢
  constructor <;> linarith

theorem small_bound (n : Nat) (hn : 1 ≤ n) (hn2 : n ≤ 20) {x : ℝ} (h0 : 0 < x) (h1 : x < 1) (ht : x ^ (n + 1) / (n + 1).factorial < ceEps) :
    |Real.exp x * eiSum n x - Real.exp x * ei1 x| ≤ 1e-12 := by
  have a := eiSum_step n (20 - n) hn h0 h1.le
  rw [Nat.add_sub_cancel' hn2] at a
  have b := small_sum h0 h1.le
  have c := abs_sub_le (eiSum n x) (eiSum 20 x) (ei1 x)
  rw [← mul_sub, abs_mul, abs_of_pos (Real.exp_pos _)]
  have e : Real.exp x ≤ 2.7182818286 := (Real.exp_le_exp.2 h1.le).trans Real.exp_one_lt_d9.le
  have : |eiSum n x - ei1 x| ≤ 3.6e-13 := by unfold ceEps at ht; linarith
  refine (mul_le_mul e this (abs_nonneg _) (by norm_num)).trans (by norm_num)

/-- The loop for small arguments ends. -/
theorem ceSmall_run {x : ℝ} (h0 : 0 < x) (h1 : x < 1) (d : Nat) : ∀ n : Nat, n + d = 15 → 1 ≤ n → ∃ m, 1 ≤ m ∧ m ≤ 15 ∧ x ^ (m + 1) / (m + 1).factorial < ceEps ∧
    ∀ fuel, d < fuel → ceSmall x fuel (eiSum n x) n (-(-1) ^ n) (x ^ n / n.factorial) = some (eiSum m x) := by
  induction d with
  | zero =>
    intro n hn _
    have : n = 15 := by omega
    subst this
    have hterm : x ^ (15 + 1) / ((15 + 1).factorial : ℝ) < ceEps := by
      have : x ^ (15 + 1) ≤ 1 := pow_le_one₀ h0.le h1.le
      refine (div_le_div_of_nonneg_right this (by positivity)).trans_lt ?_
      norm_num [Nat.factorial, ceEps]
    refine ⟨15, by norm_num, le_rfl, hterm, ?_⟩
    intro fuel hf
    obtain ⟨f, rfl⟩ : ∃ f, fuel = f + 1 := ⟨fuel - 1, by omega⟩
    have e : x ^ 15 / ((15 : ℕ).factorial : ℝ) * x / ((15 + 1 : ℕ) : ℝ) = x ^ (15 + 1) / ((15 + 1).factorial : ℝ) := by
      rw [Nat.factorial_succ 15]; push_cast; ring
    simp only [ceSmall]
    rw [e, if_pos hterm]
  | succ d ih =>
    intro n hn h
    have e : x ^ n / (n.factorial : ℝ) * x / ((n + 1 : ℕ) : ℝ) = x ^ (n + 1) / ((n + 1).factorial : ℝ) := by
      rw [Nat.factorial_succ n, pow_succ]; push_cast; field_simp
    by_cases ht : x ^ (n + 1) / ((n + 1).factorial : ℝ) < ceEps
    · refine ⟨n, h, by omega, ht, ?_⟩
      intro fuel hf
      obtain ⟨f, rfl⟩ : ∃ f, fuel = f + 1 := ⟨fuel - 1, by omega⟩
      simp only [ceSmall]
      rw [e, if_pos ht]
    · obtain ⟨m, m1, m2, m3, m4⟩ := ih (n + 1) (by omega) (by omega)
      refine ⟨m, m1, m2, m3, ?_⟩
      intro fuel hf
      obtain ⟨f, rfl⟩ : ∃ f, fuel = f + 1 := ⟨fuel - 1, by omega⟩
      simp only [ceSmall]
      rw [e, if_neg ht, ← m4 f (by omega)]
      congr 1
      · rw [eiSum_succ, neg_pow x]
        have h2 : ((n + 1 : ℕ) : ℝ) ≠ 0 := by positivity
        have h3 : ((n + 1).factorial : ℝ) ≠ 0 := by positivity
        rw [pow_succ (-1 : ℝ)]
        field_simp
        ring
      · rw [pow_succ (-1 : ℝ)]; ring

theorem asySum_succ (n : Nat) (x : ℝ) : asySum (n + 1) x = asySum n x + (-1) ^ n * n.factorial / x ^ (n + 1) := by
  rw [asySum, Finset.sum_range_succ, ← asySum]

theorem large_last {x : ℝ} (hx : 165 ≤ x) : ((8 : ℕ).factorial : ℝ) / x ^ (8 + 1) / asySum 8 x < ceEps := by
  have x0 : 0 < x := by linarith
  have hw : (1 / x) ≤ 1 / 165 := one_div_le_one_div_of_le (by norm_num) hx
  set w := 1 / x with hwd
  have w0 : 0 < w := by positivity
  have e : asySum 8 x = w * (1 - w + w ^ 2 * (2 - 6 * w) + w ^ 4 * (24 - 120 * w) + w ^ 6 * (720 - 5040 * w)) := by
    rw [hwd]
    simp only [asySum, Finset.sum_range_succ, Finset.sum_range_zero, Nat.factorial]
    push_cast
    field_simp
    ring
  have lb : w * 0.99 ≤ asySum 8 x := by
    rw [e]
    refine mul_le_mul_of_nonneg_left ?_ w0.le
    have a1 : 0 ≤ w ^ 2 * (2 - 6 * w) := mul_nonneg (by positivity) (by linarith)
    have a2 : 0 ≤ w ^ 4 * (24 - 120 * w) := mul_nonneg (by positivity) (by linarith)
    have a3 : 0 ≤ w ^ 6 * (720 - 5040 * w) := mul_nonneg (by positivity) (by linarith)
    linarith
  have pos : 0 < asySum 8 x := lt_of_lt_of_le (by positivity) lb
  rw [div_lt_iff₀ pos]
  have e2 : ((8 : ℕ).factorial : ℝ) / x ^ (8 + 1) = 40320 * w ^ 8 * w := by
    rw [hwd]; norm_num [Nat.factorial]; field_simp
  rw [e2]
  have w8 : w ^ 8 ≤ (1 / 165) ^ 8 := pow_le_pow_left₀ w0.le hw 8
  calc 40320 * w ^ 8 * w ≤ 40320 * (1 / 165) ^ 8 * w := by gcongr
    _ < ceEps * (w * 0.99) := by
      rw [mul_comm w, ← mul_assoc]
      refine mul_lt_mul_of_pos_right ?_ w0
      unfold ceEps; norm_num
    _ ≤ ceEps * asySum 8 x := mul_le_mul_of_nonneg_left lb (by unfold ceEps; norm_num)

theorem ceLarge_run {x : ℝ} (hx : 165 ≤ x) (d : Nat) : ∀ n : Nat, n + d = 7 → ∃ m, 1 ≤ m ∧ m ≤ 8 ∧ (m.factorial : ℝ) / x ^ (m + 1) / asySum m x < ceEps ∧
    ∀ fuel, d < fuel → ceLarge x fuel (asySum (n + 1) x) n ((-1) ^ n) n.factorial (1 / x ^ (n + 1)) = some (asySum m x) := by
  have x0 : 0 < x := by linarith
  have key : ∀ n : Nat, 1 / x ^ (n + 1) / x * ((n.factorial * (n + 1) : ℕ) : ℝ) = ((n + 1).factorial : ℝ) / x ^ (n + 1 + 1) := by
    intro n
    rw [Nat.factorial_succ]; push_cast; field_simp; ring
  induction d with
  | zero =>
    intro n hn
    have : n = 7 := by omega
    subst this
    refine ⟨8, by norm_num, le_rfl, large_last hx, ?_⟩
    intro fuel hf
    obtain ⟨f, rfl⟩ : ∃ f, fuel = f + 1 := ⟨fuel - 1, by omega⟩
    simp only [ceLarge]
    rw [key, if_pos (large_last hx)]
  | succ d ih =>
    intro n hn
    by_cases ht : ((n + 1).factorial : ℝ) / x ^ (n + 1 + 1) / asySum (n + 1) x < ceEps
    · refine ⟨n + 1, by omega, by omega, ht, ?_⟩
      intro fuel hf
      obtain ⟨f, rfl⟩ : ∃ f, fuel = f + 1 := ⟨fuel - 1, by omega⟩
      simp only [ceLarge]
      rw [key, if_pos ht]
    · obtain ⟨m, m1, m0, m2, m3⟩ := ih (n + 1) (by omega)
      refine ⟨m, m1, m0, m2, ?_⟩
      intro fuel hf
      obtain ⟨f, rfl⟩ : ∃ f, fuel = f + 1 := ⟨fuel - 1, by omega⟩
      simp only [ceLarge]
      rw [key, if_neg ht, ← m3 f (by omega)]
      congr 1
      · rw [asySum_succ (n + 1), pow_succ (-1 : ℝ)]
        ring
      · rw [pow_succ]; ring
      · rw [Nat.factorial_succ, mul_comm]
      · rw [div_div, ← pow_succ]

theorem fact_le_pow {x : ℝ} (hx : 165 ≤ x) {m : Nat} (h1 : 1 ≤ m) (h8 : m ≤ 8) : (m.factorial : ℝ) / x ^ (m + 1) ≤ 1 / x ^ 2 := by
  have x0 : 0 < x := by linarith
  obtain ⟨k, rfl⟩ : ∃ k, m = k + 1 := ⟨m - 1, by omega⟩
  rw [div_le_div_iff₀ (by positivity) (by positivity), show k + 1 + 1 = k + 2 by ring, pow_add, one_mul]
  refine mul_le_mul_of_nonneg_right ?_ (by positivity)
  have : (165 : ℝ) ^ k ≤ x ^ k := pow_le_pow_left₀ (by norm_num) hx k
  refine le_trans ?_ this
  have hk : k ≤ 7 := by omega
  clear * - hk
  interval_cases k <;> norm_num [Nat.factorial]

/-- Error of the asymptotic sum when the loop stops. -/
theorem large_err {x : ℝ} (hx : 165 ≤ x) {m : Nat} (h1 : 1 ≤ m) (h8 : m ≤ 8) (ht : (m.factorial : ℝ) / x ^ (m + 1) / asySum m x < ceEps) :
    |asySum m x - Real.exp x * ei1 x| ≤ 2e-13 * (Real.exp x * ei1 x) := by
  have x0 : 0 < x := by linarith
  have b := asy_bound m (x := x) (by linarith)
  have b1 := asy_bound 1 (x := x) (by linarith)
  have e1 : asySum 1 x = 1 / x := by simp [asySum]
  rw [e1] at b1
  have f := fact_le_pow hx h1 h8
  set T := (m.factorial : ℝ) / x ^ (m + 1)
  set v := Real.exp x * ei1 x
  have b1' : |1 / x - v| ≤ 1 / x ^ 2 := by simpa using b1
  have e2 : 1 / x ^ 2 ≤ 1 / x * (1 / 165) := by
    rw [show 1 / x ^ 2 = 1 / x * (1 / x) by field_simp]
    exact mul_le_mul_of_nonneg_left (one_div_le_one_div_of_le (by norm_num) hx) (by positivity)
  have w0 : 0 < 1 / x := by positivity
  rw [abs_le] at b b1'
  have sp : 0 < asySum m x := by linarith
  rw [div_lt_iff₀ sp] at ht
  unfold ceEps at ht
  rw [abs_le]
  constructor <;> linarith

end TicTac
end
