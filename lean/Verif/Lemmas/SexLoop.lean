import Verif.Lemmas.SexInt
/-! The loops of `SEXN`. -/
noncomputable section
namespace TicTac
open Polynomial Spec Set MeasureTheory

theorem tnForward_eq {y : ℝ} (hy : 0 < y) (κ : ℝ) (n : Nat) :
    tnForward y ((Real.exp (y - κ) / 2 - Real.exp (-y - κ) / 2) / y) ((Real.exp (y - κ) / 2 + Real.exp (-y - κ) / 2) / y) n =
      (tMom y κ n, (Real.exp (y - κ) / 2 - (-1) ^ n * (Real.exp (-y - κ) / 2)) / y, (Real.exp (y - κ) / 2 - (-1) ^ (n + 1) * (Real.exp (-y - κ) / 2)) / y) := by
  have e1 : Real.exp (y - κ) = Real.exp (-κ) * Real.exp y := by rw [← Real.exp_add]; congr 1; ring
  have e2 : Real.exp (-y - κ) = Real.exp (-κ) * Real.exp (-y) := by rw [← Real.exp_add]; congr 1; ring
  induction n with
  | zero =>
    rw [tnForward, tMom_zero hy]
    refine Prod.ext ?_ (Prod.ext ?_ ?_)
    · simp only; rw [e1, e2]; ring
    · simp
    · simp
  | succ n ih =>
    rw [tnForward, ih]
    refine Prod.ext ?_ (Prod.ext rfl ?_)
    · simp only
      rw [tMom_succ hy, e1, e2]
      ring
    · simp only
      rw [pow_succ (-1 : ℝ) (n + 1), pow_succ (-1 : ℝ) n]
      ring

/-- The product by which the backward recursion damps an error. -/
def damp (y : ℝ) (i k : Nat) : ℝ := ∏ n ∈ Finset.Ico i (k + 1), y / n

theorem tnBack_spec {y : ℝ} (hy : 0 < y) (κ : ℝ) (max : Nat) (k : Nat) : ∀ (t : ℝ) (tn : Nat → ℝ), ∀ i,
    (1 ≤ i ∧ i ≤ max ∧ i ≤ k →
      |tnBack y max k t (Real.exp (y - κ) / 2 - (-1) ^ k * (Real.exp (-y - κ) / 2)) (Real.exp (y - κ) / 2 + (-1) ^ k * (Real.exp (-y - κ) / 2)) tn i - tMom y κ (i - 1)| ≤ |t - tMom y κ k| * damp y i k) ∧
    (¬(1 ≤ i ∧ i ≤ max ∧ i ≤ k) →
      tnBack y max k t (Real.exp (y - κ) / 2 - (-1) ^ k * (Real.exp (-y - κ) / 2)) (Real.exp (y - κ) / 2 + (-1) ^ k * (Real.exp (-y - κ) / 2)) tn i = tn i) := by
  have e1 : Real.exp (y - κ) = Real.exp (-κ) * Real.exp y := by rw [← Real.exp_add]; congr 1; ring
  have e2 : Real.exp (-y - κ) = Real.exp (-κ) * Real.exp (-y) := by rw [← Real.exp_add]; congr 1; ring
  induction k with
  | zero =>
    intro t tn i
    refine ⟨fun h => by omega, fun _ => rfl⟩
  | succ k ih =>
    intro t tn i
    set P := Real.exp (y - κ) / 2
    set Q := Real.exp (-y - κ) / 2
    set t' := (P - (-1) ^ (k + 1) * Q - y * t) / (k + 1 : Nat) with ht'
    set tn' := if k + 2 ≤ max + 1 then Function.update tn (k + 1) t' else tn with htn'
    have kp : ((k + 1 : Nat) : ℝ) ≠ 0 := by positivity
    have hstep : |t' - tMom y κ k| = |t - tMom y κ (k + 1)| * (y / (k + 1 : Nat)) := by
      have hs := tMom_succ hy κ k
      have : t' - tMom y κ k = -(t - tMom y κ (k + 1)) * (y / (k + 1 : Nat)) := by
        rw [ht', hs]
        simp only [P, Q]
        rw [e1, e2]
        field_simp
        ring
      rw [this, abs_mul, abs_neg, abs_of_pos (show 0 < y / ((k + 1 : Nat) : ℝ) by positivity)]
    have hsw : P - (-1) ^ (k + 1) * Q = P + (-1) ^ k * Q ∧ P + (-1) ^ (k + 1) * Q = P - (-1) ^ k * Q := by
      constructor <;> (rw [pow_succ]; ring)
    have hrec : tnBack y max (k + 1) t (P - (-1) ^ (k + 1) * Q) (P + (-1) ^ (k + 1) * Q) tn = tnBack y max k t' (P - (-1) ^ k * Q) (P + (-1) ^ k * Q) tn' := by
      rw [tnBack, ← hsw.2, ← hsw.1]
    rw [hrec]
    have hi := ih t' tn' i
    have hd : ∀ i, i ≤ k + 1 → damp y i (k + 1) = damp y i k * (y / (k + 1 : Nat)) := by
      intro i h
      unfold damp
      rw [Finset.prod_Ico_succ_top (by omega)]
    constructor
    · rintro ⟨h1, h2, h3⟩
      by_cases hik : i ≤ k
      · refine (hi.1 ⟨h1, h2, hik⟩).trans (le_of_eq ?_)
        rw [hstep, hd i (by omega)]; ring
      · have : i = k + 1 := by omega
        subst this
        rw [hi.2 (by omega), htn', if_pos (by omega), Function.update_self, Nat.add_sub_cancel, hstep, hd _ le_rfl]
        simp [damp]
    · intro h
      rw [hi.2 (by omega), htn']
      by_cases hk : k + 2 ≤ max + 1
      · rw [if_pos hk, Function.update_of_ne (by omega)]
      · rw [if_neg hk]

theorem unForward_spec {x y : ℝ} (hx : 1 < x) (κ : ℝ) {u1 e Δ : ℝ} {tn : Nat → ℝ} {K : Nat} (hx5 : x ≤ 5) (h0 : |u1 - uMom x y κ 0| ≤ e)
    (ht : ∀ i, 1 ≤ i → i ≤ K → |tn i - tMom y κ (i - 1)| ≤ Δ) (n : Nat) (hn : n ≤ K) : |unForward x u1 tn n - uMom x y κ n| ≤ 5 ^ n * (e + Δ / 4) - Δ / 4 := by
  induction n with
  | zero => simpa [unForward] using h0
  | succ n ih =>
    have h := ih (by omega)
    have h2 := ht (n + 1) (by omega) hn
    rw [Nat.add_sub_cancel] at h2
    rw [unForward, uMom_succ hx]
    have e1 : x * unForward x u1 tn n - tn (n + 1) - (x * uMom x y κ n - tMom y κ n) = x * (unForward x u1 tn n - uMom x y κ n) - (tn (n + 1) - tMom y κ n) := by ring
    rw [e1]
    refine (abs_sub _ _).trans ?_
    rw [abs_mul, abs_of_pos (by linarith : 0 < x), pow_succ]
    nlinarith [abs_nonneg (unForward x u1 tn n - uMom x y κ n)]

theorem unBack_spec {x y : ℝ} (hx : 5 < x) (κ : ℝ) {um e Δ : ℝ} {tn : Nat → ℝ} {max : Nat} (hΔ : Δ ≤ 4 * e) (h0 : |um - uMom x y κ (max - 1)| ≤ e)
    (ht : ∀ i, 1 ≤ i → i ≤ max → |tn i - tMom y κ (i - 1)| ≤ Δ) (k : Nat) (hk : k < max) : |unBack x um tn max k - uMom x y κ (max - 1 - k)| ≤ e := by
  induction k with
  | zero => simpa [unBack] using h0
  | succ k ih =>
    have h := ih (by omega)
    have h2 := ht (max - (k + 1)) (by omega) (by omega)
    have hu := uMom_succ (x := x) (by linarith) y κ (max - 1 - (k + 1))
    rw [show max - 1 - (k + 1) + 1 = max - 1 - k by omega] at hu
    rw [show max - (k + 1) - 1 = max - 1 - (k + 1) by omega] at h2
    rw [unBack]
    have x0 : 0 < x := by linarith
    have e1 : (unBack x um tn max k + tn (max - (k + 1))) / x - uMom x y κ (max - 1 - (k + 1)) = ((unBack x um tn max k - uMom x y κ (max - 1 - k)) + (tn (max - (k + 1)) - tMom y κ (max - 1 - (k + 1)))) / x := by
      rw [hu]; field_simp; ring
    rw [e1, abs_div, abs_of_pos x0, div_le_iff₀ x0]
    refine (abs_add_le _ _).trans ?_
    have e0 : 0 ≤ e := (abs_nonneg _).trans h
    nlinarith

/-- The series for `UN(max)`: the sum after `i` terms. -/
theorem uMom_expand {x : ℝ} (hx : 1 < x) (y κ : ℝ) (n i : Nat) : uMom x y κ n = (∑ k ∈ Finset.range i, tMom y κ (n + k) / x ^ (k + 1)) + uMom x y κ (n + i) / x ^ i := by
  induction i with
  | zero => simp
  | succ i ih =>
    have x0 : x ≠ 0 := by linarith
    rw [Finset.sum_range_succ, ih]
    have := uMom_succ hx y κ (n + i)
    rw [← add_assoc, this]
    field_simp
    ring

/-- The remainder is small if the next term is. -/
theorem uMom_rest {x y : ℝ} (hx : 5 < x) (hy : 1e-3 < y) (κ : ℝ) (n : Nat) : |uMom x y κ n| ≤ 252 * tMom y κ n / x := by
  have hy0 : 0 < y := by linarith [show (0 : ℝ) < 1e-3 by norm_num]
  have hs := uMom_succ (x := x) (by linarith) y κ n
  have h1 := uMom_abs (x := x) (by linarith) y κ (n + 1)
  have h2 := aMom_next hy0 κ n
  have ha : 0 ≤ aMom y κ (n + 1) := (abs_nonneg _).trans (tMom_abs y κ (n + 1))
  have hy1 : (1 + y) / y ≤ 1001 := by rw [div_le_iff₀ hy0]; linarith [show (1e-3 : ℝ) = 1 / 1000 by norm_num]
  have hT : 0 ≤ tMom y κ n := by
    have : 0 < (1 + y) / y := by positivity
    by_contra hc
    push Not at hc
    nlinarith [mul_neg_of_pos_of_neg this hc]
  have h3 : |uMom x y κ (n + 1)| ≤ 251 * tMom y κ n := by
    have : aMom y κ (n + 1) / (x - 1) ≤ aMom y κ (n + 1) / 4 := div_le_div_of_nonneg_left ha (by norm_num) (by linarith)
    nlinarith
  have x0 : 0 < x := by linarith
  have e : uMom x y κ n = (uMom x y κ (n + 1) + tMom y κ n) / x := by rw [hs]; field_simp; ring
  rw [e, abs_div, abs_of_pos x0]
  refine div_le_div_of_nonneg_right ((abs_add_le _ _).trans ?_) x0.le
  rw [abs_of_nonneg hT]
  linarith

/-- The partial sums of the series as computed. -/
def serSum (x : ℝ) (tn : Nat → ℝ) (max i : Nat) : ℝ := ∑ k ∈ Finset.range i, tn (max + k) / x ^ (k + 1)

theorem unSeries_run {x : ℝ} (hx : 0 < x) (tn : Nat → ℝ) (max : Nat) (hmax : max ≤ 10) (left : Nat) : ∀ (i : Nat) (sum xi dsum : ℝ), i + left = 21 → 1 ≤ i →
    (i = 21 → sum = serSum x tn max 20) → (sum + dsum = serSum x tn max i) → xi = 1 / x ^ i →
    ∃ m, 1 ≤ m ∧ m ≤ 20 ∧ (m = 20 ∨ serSum x tn max m ≠ 0 ∧ |tn (max + m) / x ^ (m + 1) / serSum x tn max m| < 1e-13) ∧ unSeries x tn max left i sum xi dsum = some (serSum x tn max m) := by
  induction left with
  | zero =>
    intro i sum xi dsum hi h1 h2 h3 h4
    exact ⟨20, by norm_num, le_rfl, Or.inl rfl, by rw [unSeries, h2 (by omega)]⟩
  | succ left ih =>
    intro i sum xi dsum hi h1 h2 h3 h4
    have exi : xi / x = 1 / x ^ (i + 1) := by rw [h4, pow_succ, div_div]
    have ed : tn (max + i) * (xi / x) = tn (max + i) / x ^ (i + 1) := by rw [exi]; ring
    rw [unSeries]
    dsimp only
    rw [if_neg (by omega), ed, h3]
    by_cases hc : serSum x tn max i ≠ 0 ∧ |tn (max + i) / x ^ (i + 1) / serSum x tn max i| < 1e-13
    · rw [if_pos hc]
      exact ⟨i, h1, by omega, Or.inr hc, rfl⟩
    · rw [if_neg hc]
      refine ih (i + 1) _ _ _ (by omega) (by omega) (fun h => by rw [show i = 20 by omega]) ?_ exi
      rw [serSum, serSum, Finset.sum_range_succ]

theorem geo_le {x : ℝ} (hx : 5 < x) (i : Nat) : ∑ k ∈ Finset.range i, 1 / x ^ (k + 1) ≤ 1 / 4 - 1 / (4 * 5 ^ i) := by
  induction i with
  | zero => simp
  | succ i ih =>
    rw [Finset.sum_range_succ]
    have h : 1 / x ^ (i + 1) ≤ 1 / 5 ^ (i + 1) := one_div_le_one_div_of_le (by positivity) (pow_le_pow_left₀ (by norm_num) hx.le _)
    have e : (1 : ℝ) / (4 * 5 ^ i) = 5 / (4 * 5 ^ (i + 1)) := by rw [pow_succ]; field_simp
    have e2 : (1 : ℝ) / 5 ^ (i + 1) = 4 / (4 * 5 ^ (i + 1)) := by field_simp
    have e3 : (1 : ℝ) / (4 * 5 ^ (i + 1)) = 5 / (4 * 5 ^ (i + 1)) - 4 / (4 * 5 ^ (i + 1)) := by ring
    linarith

/-- The start of the backward recursion for `UN`. -/
theorem unSeries_err {x y : ℝ} (hx : 5 < x) (hy : 1e-3 < y) (κ : ℝ) {tn : Nat → ℝ} {max : Nat} {Δ : ℝ} (h1 : 1 ≤ max)
    (ht : ∀ i, 1 ≤ i → i ≤ max + 19 → |tn i - tMom y κ (i - 1)| ≤ Δ) {m : Nat} (m1 : 1 ≤ m) (m2 : m ≤ 20)
    (hm : m = 20 ∨ serSum x tn max m ≠ 0 ∧ |tn (max + m) / x ^ (m + 1) / serSum x tn max m| < 1e-13) :
    |serSum x tn max m - uMom x y κ (max - 1)| ≤ 7e-12 * Real.exp (y - κ) + 51 * Δ := by
  have hy0 : 0 < y := by linarith [show (0 : ℝ) < 1e-3 by norm_num]
  have x0 : 0 < x := by linarith
  have Δ0 : 0 ≤ Δ := (abs_nonneg _).trans (ht 1 le_rfl (by omega))
  set B := Real.exp (y - κ) with hB
  have B0 : 0 < B := Real.exp_pos _
  have hT : ∀ n, |tMom y κ n| ≤ B := fun n => ((tMom_abs y κ n).trans (aMom_le hy0 κ n)).trans (div_le_self B0.le (by push_cast; linarith [show (0 : ℝ) ≤ n by positivity]))
  have hA : ∀ n, aMom y κ n ≤ B := fun n => (aMom_le hy0 κ n).trans (div_le_self B0.le (by push_cast; linarith [show (0 : ℝ) ≤ n by positivity]))
  have hg : ∑ k ∈ Finset.range m, 1 / x ^ (k + 1) ≤ 1 / 4 := (geo_le hx m).trans (by have : (0 : ℝ) < 1 / (4 * 5 ^ m) := by positivity
                                                                                     linarith)
  have hS : |serSum x tn max m - ∑ k ∈ Finset.range m, tMom y κ (max - 1 + k) / x ^ (k + 1)| ≤ Δ / 4 := by
    unfold serSum
    rw [← Finset.sum_sub_distrib]
    refine (Finset.abs_sum_le_sum_abs _ _).trans ?_
    have : ∀ k ∈ Finset.range m, |tn (max + k) / x ^ (k + 1) - tMom y κ (max - 1 + k) / x ^ (k + 1)| ≤ Δ * (1 / x ^ (k + 1)) := by
      intro k hk
      have hk' := Finset.mem_range.1 hk
      have h := ht (max + k) (by omega) (by omega)
      rw [show max + k - 1 = max - 1 + k by omega] at h
      rw [← sub_div, abs_div, abs_of_pos (show 0 < x ^ (k + 1) by positivity), ← mul_one_div]
      exact mul_le_mul_of_nonneg_right h (by positivity)
    refine (Finset.sum_le_sum this).trans ?_
    rw [← Finset.mul_sum]
    linarith [mul_le_mul_of_nonneg_left hg Δ0]
  have hs2 : |serSum x tn max m| ≤ (B + Δ) / 4 := by
    have h : |∑ k ∈ Finset.range m, tMom y κ (max - 1 + k) / x ^ (k + 1)| ≤ B / 4 := by
      refine (Finset.abs_sum_le_sum_abs _ _).trans ?_
      have : ∀ k ∈ Finset.range m, |tMom y κ (max - 1 + k) / x ^ (k + 1)| ≤ B * (1 / x ^ (k + 1)) := by
        intro k _
        rw [abs_div, abs_of_pos (show 0 < x ^ (k + 1) by positivity), ← mul_one_div]
        exact mul_le_mul_of_nonneg_right (hT _) (by positivity)
      refine (Finset.sum_le_sum this).trans ?_
      rw [← Finset.mul_sum]
      linarith [mul_le_mul_of_nonneg_left hg B0.le]
    have := abs_sub_abs_le_abs_sub (serSum x tn max m) (∑ k ∈ Finset.range m, tMom y κ (max - 1 + k) / x ^ (k + 1))
    linarith
  have hrest : |uMom x y κ (max - 1 + m) / x ^ m| ≤ 6.5e-12 * B + 50 * Δ := by
    rw [abs_div, abs_of_pos (show 0 < x ^ m by positivity)]
    have hm' : m = 20 ∨ m ≤ 19 ∧ serSum x tn max m ≠ 0 ∧ |tn (max + m) / x ^ (m + 1) / serSum x tn max m| < 1e-13 := by
      rcases hm with h | h
      · exact Or.inl h
      · rcases Nat.lt_or_ge m 20 with h2 | h2
        · exact Or.inr ⟨by omega, h⟩
        · exact Or.inl (by omega)
    rcases hm' with rfl | ⟨m19, hne, hm⟩
    · have h := uMom_abs (x := x) (by linarith) y κ (max - 1 + 20)
      have h2 : aMom y κ (max - 1 + 20) / (x - 1) ≤ B / 4 :=
        (div_le_div_of_nonneg_right (hA _) (by linarith)).trans (div_le_div_of_nonneg_left B0.le (by norm_num) (by linarith))
      have h3 : (5 : ℝ) ^ 20 ≤ x ^ 20 := pow_le_pow_left₀ (by norm_num) hx.le _
      rw [div_le_iff₀ (by positivity)]
      have h4 : B / 4 ≤ 6.5e-12 * B * 5 ^ 20 := by
        have : (1 : ℝ) / 4 ≤ 6.5e-12 * 5 ^ 20 := by norm_num
        nlinarith
      have h5 : 6.5e-12 * B * 5 ^ 20 ≤ (6.5e-12 * B + 50 * Δ) * x ^ 20 := by
        refine mul_le_mul (by linarith) h3 (by positivity) (by positivity)
      linarith
    · have h := uMom_rest hx hy κ (max - 1 + m)
      have hi := ht (max + m) (by omega) (by omega)
      rw [show max + m - 1 = max - 1 + m by omega] at hi
      have h3 : |tn (max + m)| / x ^ (m + 1) ≤ 1e-13 * |serSum x tn max m| := by
        rw [abs_div, div_lt_iff₀ (abs_pos.2 hne), abs_div, abs_of_pos (show 0 < x ^ (m + 1) by positivity)] at hm
        exact hm.le
      have h4 : tMom y κ (max - 1 + m) ≤ |tn (max + m)| + Δ := by
        have a := abs_le.1 hi
        linarith [le_abs_self (tn (max + m))]
      have h5 : |uMom x y κ (max - 1 + m)| / x ^ m ≤ 252 * tMom y κ (max - 1 + m) / x ^ (m + 1) := by
        rw [pow_succ, mul_comm (x ^ m) x, ← div_div]
        exact div_le_div_of_nonneg_right h (by positivity)
      have h6 : 252 * tMom y κ (max - 1 + m) / x ^ (m + 1) ≤ 252 * (|tn (max + m)| / x ^ (m + 1)) + 252 * (Δ / x ^ (m + 1)) := by
        rw [← mul_add, ← add_div, mul_div_assoc]
        exact mul_le_mul_of_nonneg_left (div_le_div_of_nonneg_right h4 (by positivity)) (by norm_num)
      have h7 : Δ / x ^ (m + 1) ≤ Δ / 25 := by
        refine div_le_div_of_nonneg_left Δ0 (by norm_num) ?_
        calc (25 : ℝ) = 5 ^ 2 := by norm_num
          _ ≤ x ^ 2 := pow_le_pow_left₀ (by norm_num) hx.le _
          _ ≤ x ^ (m + 1) := pow_le_pow_right₀ (by linarith) (by omega)
      linarith
  have e := uMom_expand (x := x) (by linarith) y κ (max - 1) m
  rw [e]
  have tri : |serSum x tn max m - ((∑ k ∈ Finset.range m, tMom y κ (max - 1 + k) / x ^ (k + 1)) + uMom x y κ (max - 1 + m) / x ^ m)| ≤
      |serSum x tn max m - ∑ k ∈ Finset.range m, tMom y κ (max - 1 + k) / x ^ (k + 1)| + |uMom x y κ (max - 1 + m) / x ^ m| := by
    rw [← sub_sub]; exact abs_sub _ _
  linarith

/-- Sums over Legendre coefficients. -/
theorem legSum_err {f g : Nat → ℝ} {n : Nat} {e : ℝ} (h : ∀ k, k ≤ n → |f (k + 1) - g (k + 1)| ≤ e) : |legSum f n - legSum g n| ≤ 3 ^ n * e := by
  unfold legSum
  rw [← Finset.sum_sub_distrib]
  refine (Finset.abs_sum_le_sum_abs _ _).trans ?_
  have e0 : 0 ≤ e := (abs_nonneg _).trans (h 0 (by omega))
  have : ∀ k ∈ Finset.range (n + 1), |legTab n k * f (k + 1) - legTab n k * g (k + 1)| ≤ |legTab n k| * e := by
    intro k hk
    rw [← mul_sub, abs_mul]
    exact mul_le_mul_of_nonneg_left (h k (by have := Finset.mem_range.1 hk; omega)) (abs_nonneg _)
  refine (Finset.sum_le_sum this).trans ?_
  rw [← Finset.sum_mul]
  exact mul_le_mul_of_nonneg_right (legTab_abs n) e0

theorem legSum_tMom (x y a : ℝ) (n : Nat) : legSum (fun i => tMom y (y * x - a * a) (i - 1)) n = 1 / 2 * Real.exp (a ^ 2) * ∫ z in (-1 : ℝ)..1, (legendre n).eval z * Real.exp (-(y * (x - z))) := by
  unfold legSum tMom
  simp only [Nat.add_sub_cancel]
  have e : ∀ z, (legendre n).eval z * Real.exp (-(y * (x - z))) = Real.exp (-(y * x)) * ∑ k ∈ Finset.range (n + 1), legTab n k * (z ^ k * Real.exp (y * z)) := by
    intro z
    rw [← legTab_sum, show -(y * (x - z)) = -(y * x) + y * z by ring, Real.exp_add, Finset.sum_mul, Finset.mul_sum]
    exact Finset.sum_congr rfl fun k _ => by ring
  simp only [e]
  rw [intervalIntegral.integral_const_mul, intervalIntegral.integral_finset_sum fun k _ => (mom_integrable y k _ _).const_mul _]
  simp only [intervalIntegral.integral_const_mul]
  rw [Finset.mul_sum, Finset.mul_sum]
  refine Finset.sum_congr rfl fun k _ => ?_
  rw [show -(y * x - a * a) = a ^ 2 + -(y * x) by ring, Real.exp_add]
  ring

theorem legSum_uMom {x : ℝ} (hx : 1 < x) (y a : ℝ) (n : Nat) : legSum (fun i => uMom x y (y * x - a * a) (i - 1)) n =
    1 / 2 * Real.exp (a ^ 2) * ∫ z in (-1 : ℝ)..1, (legendre n).eval z * (Real.exp (-(y * (x - z))) / (x - z)) := by
  unfold legSum uMom
  simp only [Nat.add_sub_cancel]
  have e : ∀ z, (legendre n).eval z * (Real.exp (-(y * (x - z))) / (x - z)) = Real.exp (-(y * x)) * ∑ k ∈ Finset.range (n + 1), legTab n k * (z ^ k * (Real.exp (y * z) / (x - z))) := by
    intro z
    rw [← legTab_sum, show -(y * (x - z)) = -(y * x) + y * z by ring, Real.exp_add, Finset.sum_mul, Finset.mul_sum]
    exact Finset.sum_congr rfl fun k _ => by ring
  simp only [e]
  rw [intervalIntegral.integral_const_mul, intervalIntegral.integral_finset_sum fun k _ => ((umom_continuous hx y k).intervalIntegrable).const_mul _]
  simp only [intervalIntegral.integral_const_mul]
  rw [Finset.mul_sum, Finset.mul_sum]
  refine Finset.sum_congr rfl fun k _ => ?_
  rw [show -(y * x - a * a) = a ^ 2 + -(y * x) by ring, Real.exp_add]
  ring

end TicTac
end
