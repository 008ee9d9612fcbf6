import Verif.Lemmas.Double
/-! Signs, differences and absolute errors. -/
noncomputable section
namespace TicTac
open Spec

theorem isDouble_neg {x : ℝ} (h : IsDouble x) : IsDouble (-x) := by
  obtain ⟨neg, m, e, hok, rfl⟩ := h
  refine ⟨!neg, m, e, hok, ?_⟩
  unfold dblValue
  cases neg <;> simp

theorem Spec.Nearest.neg {v r : ℝ} (h : Nearest v r) : Nearest (-v) (-r) := by
  refine ⟨isDouble_neg h.1, fun d hd => ?_⟩
  have := h.2 (-d) (isDouble_neg hd)
  rw [show -r - -v = -(r - v) by ring, abs_neg, show d - -v = -(-d - v) by ring, abs_neg]
  exact this

theorem double_zero : IsDouble 0 := by simpa using double_nat 0 (by norm_num)

/-- Error of a rounding, whatever the size of the value. -/
theorem nearest_abs {v r : ℝ} (h : Nearest v r) (h2 : |v| ≤ 2 ^ 1023) : |r - v| ≤ ulpHalf * |v| + (2 : ℝ) ^ (-1022 : ℤ) := by
  have hp : (0 : ℝ) < (2 : ℝ) ^ (-1022 : ℤ) := by positivity
  have h2' : |v| ≤ (2 : ℝ) ^ (1023 : ℤ) := by exact_mod_cast h2
  generalize hB : (2 : ℝ) ^ (1023 : ℤ) = B at h2'
  generalize hA : (2 : ℝ) ^ (-1022 : ℤ) = A at hp ⊢
  have hu := u_pos
  rcases lt_or_ge |v| A with hs | hs
  · have := h.2 0 double_zero
    rw [zero_sub, abs_neg] at this
    have h0 : 0 ≤ ulpHalf * |v| := mul_nonneg hu.le (abs_nonneg _)
    linarith
  · rcases le_total 0 v with h0 | h0
    · rw [abs_of_nonneg h0] at hs h2' ⊢
      have := nearest_rel h (by rw [hA]; exact hs) (by rw [hB]; exact h2')
      linarith
    · rw [abs_of_nonpos h0] at hs h2' ⊢
      have := nearest_rel h.neg (by rw [hA]; exact hs) (by rw [hB]; exact h2')
      rw [show -r - -v = -(r - v) by ring, abs_neg] at this
      linarith

/-- The conversion of a double is the double. -/
theorem nearest_eq {v r : ℝ} (h : Nearest v r) (hv : IsDouble v) : r = v := by
  have := h.2 v hv
  rw [sub_self, abs_zero] at this
  linarith [abs_nonpos_iff.1 this]

theorem double_half : IsDouble 0.5 := ⟨false, 2 ^ 52, -53, ⟨by norm_num, by norm_num, by norm_num, Or.inl (le_refl _)⟩, by unfold dblValue; norm_num⟩

theorem one_sub_pow_le (k : Nat) : 1 - (1 - ulpHalf) ^ k ≤ k * ulpHalf := by have := pow_u_ge k; linarith

/-- Taking away a small exact number costs at most one rounding. -/
theorem Close.sub_small {k : Nat} {x X Y : ℝ} (h : Close k x X) (hk : k ≤ 1000) (hY : 0 ≤ Y) (hs : 2 * ((k : ℝ) + 1) * Y ≤ X) : Close (k + 1) (x - Y) (X - Y) := by
  have hu := u_pos
  have hh := pow_u_half hk
  have h1 := one_sub_pow_le (k + 1)
  push_cast at h1
  have hX := h.1
  have hYX : 2 * Y ≤ X := by
    have : (0 : ℝ) ≤ k * Y := by positivity
    linarith
  have key : Y * (1 - (1 - ulpHalf) ^ (k + 1)) ≤ X * (1 / 2) * ulpHalf := by
    calc Y * (1 - (1 - ulpHalf) ^ (k + 1)) ≤ Y * (((k : ℝ) + 1) * ulpHalf) := mul_le_mul_of_nonneg_left h1 hY
      _ = (2 * ((k : ℝ) + 1) * Y) * ((1 / 2) * ulpHalf) := by ring
      _ ≤ X * ((1 / 2) * ulpHalf) := mul_le_mul_of_nonneg_right hs (by positivity)
      _ = _ := by ring
  have e : (1 - ulpHalf) ^ (k + 1) = (1 - ulpHalf) ^ k * (1 - ulpHalf) := pow_succ _ _
  refine ⟨by linarith, ?_, ?_⟩
  · have a1 : X * (1 / 2) * ulpHalf ≤ X * (1 - ulpHalf) ^ k * ulpHalf := mul_le_mul_of_nonneg_right (mul_le_mul_of_nonneg_left hh hX.le) hu.le
    have a2 : X * (1 - ulpHalf) ^ (k + 1) = X * (1 - ulpHalf) ^ k - X * (1 - ulpHalf) ^ k * ulpHalf := by rw [e]; ring
    have a3 := h.2.1
    rw [sub_mul, a2]
    linarith [key, a1, a3]
  · have a1 : x * (1 - ulpHalf) ^ (k + 1) ≤ X * (1 - ulpHalf) := by
      rw [e, ← mul_assoc]; exact mul_le_mul_of_nonneg_right h.2.2 one_sub_u_pos.le
    have a2 : X * (1 / 2) * ulpHalf ≤ X * ulpHalf := by
      have : 0 ≤ X * ulpHalf := by positivity
      linarith
    rw [sub_mul]
    linarith [key, a1, a2]

/-- Difference of numbers of different size. -/
theorem Close.sub_half {k l : Nat} {x X y Y : ℝ} (h : Close k x X) (g : Close l y Y) (hkl : 2 * k + l + 1 ≤ 1000) (hs : 2 * Y ≤ X) : Close (2 * k + l + 1) (x - y) (X - Y) := by
  have hu := u_pos
  have hX := h.1
  have hY := g.1
  have rx := abs_le.1 (h.rel (by omega))
  have ry := abs_le.1 (g.rel (by omega))
  have hD : 0 < X - Y := by linarith
  -- relative error of the difference
  have err : |x - y - (X - Y)| ≤ 1.001 * (2 * k + l) * ulpHalf * (X - Y) := by
    have e1 : 1.001 * (k : ℝ) * ulpHalf * X ≤ 1.001 * (k : ℝ) * ulpHalf * (2 * (X - Y)) := mul_le_mul_of_nonneg_left (by linarith) (by positivity)
    have e2 : 1.001 * (l : ℝ) * ulpHalf * Y ≤ 1.001 * (l : ℝ) * ulpHalf * (X - Y) := mul_le_mul_of_nonneg_left (by linarith) (by positivity)
    rw [abs_le]
    constructor <;> linarith [rx.1, rx.2, ry.1, ry.2]
  have hn : ((2 * k + l : ℕ) : ℝ) ≤ 999 := by exact_mod_cast (show 2 * k + l ≤ 999 by omega)
  push_cast at hn
  obtain ⟨n, hn'⟩ : ∃ n : ℕ, n = 2 * k + l := ⟨_, rfl⟩
  have hnr : (2 * (k : ℝ) + l) = n := by rw [hn']; push_cast; ring
  rw [hnr] at err hn
  rw [← hn'] at hkl ⊢
  have hn0 : (0 : ℝ) ≤ n := Nat.cast_nonneg n
  generalize hd : x - y = d at err ⊢
  generalize hDd : X - Y = D at err hD ⊢
  have hb := abs_le.1 err
  -- the power
  have hpow : (1 - ulpHalf) ^ (n + 1) ≤ 1 - (n + 1) * ulpHalf + (n + 1) * n * ulpHalf ^ 2 := by
    clear * - hu
    have hu1 := one_sub_u_pos
    induction n with
    | zero => simp
    | succ m ih =>
      rw [pow_succ]
      have h1 := mul_le_mul_of_nonneg_right ih hu1.le
      refine h1.trans ?_
      push_cast
      have h2 : (0 : ℝ) ≤ (m + 1) * m * ulpHalf ^ 3 := by positivity
      have h3 : (0 : ℝ) ≤ (m + 1) * ulpHalf ^ 2 := by positivity
      nlinarith [h2, h3]
  have hus := u_small
  have hsq : ((n : ℝ) + 1) * n * ulpHalf ^ 2 ≤ 1 / 10 ^ 3 * ulpHalf := by
    have : ((n : ℝ) + 1) * n * ulpHalf ≤ 1000 * 999 * (1 / 10 ^ 15) := mul_le_mul (mul_le_mul (by linarith) hn hn0 (by norm_num)) hus hu.le (by norm_num)
    calc ((n : ℝ) + 1) * n * ulpHalf ^ 2 = (((n : ℝ) + 1) * n * ulpHalf) * ulpHalf := by ring
      _ ≤ (1000 * 999 * (1 / 10 ^ 15)) * ulpHalf := mul_le_mul_of_nonneg_right this hu.le
      _ ≤ _ := mul_le_mul_of_nonneg_right (by norm_num) hu.le
  have hlow : (1 - ulpHalf) ^ (n + 1) ≤ 1 - 1.001 * (n : ℝ) * ulpHalf := by
    refine hpow.trans ?_
    have : (n : ℝ) * ulpHalf * 0.001 ≤ 0.999 * ulpHalf := by
      have := mul_le_mul_of_nonneg_right hn hu.le
      linarith
    linarith
  refine ⟨hD, ?_, ?_⟩
  · have := mul_le_mul_of_nonneg_left hlow hD.le
    linarith [hb.1]
  · have hd0 : d ≤ D * (1 + 1.001 * n * ulpHalf) := by linarith [hb.2]
    have hP : 0 ≤ 1 - 1.001 * (n : ℝ) * ulpHalf := (pow_u_pos (n + 1)).le.trans hlow
    have h5 : d * (1 - ulpHalf) ^ (n + 1) ≤ D * (1 + 1.001 * n * ulpHalf) * (1 - ulpHalf) ^ (n + 1) := mul_le_mul_of_nonneg_right hd0 (pow_u_pos _).le
    have h6 : D * (1 + 1.001 * n * ulpHalf) * (1 - ulpHalf) ^ (n + 1) ≤ D * (1 + 1.001 * n * ulpHalf) * (1 - 1.001 * (n : ℝ) * ulpHalf) :=
      mul_le_mul_of_nonneg_left hlow (by positivity)
    have h7 : D * (1 + 1.001 * n * ulpHalf) * (1 - 1.001 * (n : ℝ) * ulpHalf) ≤ D := by
      have : D * (1 + 1.001 * n * ulpHalf) * (1 - 1.001 * (n : ℝ) * ulpHalf) = D * (1 - (1.001 * n * ulpHalf) ^ 2) := by ring
      rw [this]
      exact mul_le_of_le_one_right hD.le (by have := sq_nonneg (1.001 * (n : ℝ) * ulpHalf); linarith)
    exact h5.trans (h6.trans h7)

section
variable {F : Fpu} (hF : IEEE F)
include hF

theorem Dv.mul_neg {k l n p : Nat} {x X y Y : ℝ} (h : Dv k n (-x) X) (g : Dv l p y Y) (hkl : k + l ≤ 1000) (hs : n + p ≤ 280) : Dv (k + l + 1) (n + p) (-F.mul x y) (X * Y) := by
  have hr := h.2.2.mul g.2.2
  have hc := h.2.1.mul g.2.1
  have hx : IsDouble x := by simpa using isDouble_neg h.1
  have ha := abs_range hc hkl (hr.safe hs)
  rw [neg_mul, abs_neg] at ha
  have hne := (hF.mul x y hx g.1 ha).neg
  rw [← neg_mul] at hne
  have := round_val hc hkl (hr.safe hs) hne
  exact ⟨this.1, this.2, hr⟩

theorem Dv.neg_mul {k l n p : Nat} {x X y Y : ℝ} (h : Dv k n x X) (g : Dv l p (-y) Y) (hkl : k + l ≤ 1000) (hs : n + p ≤ 280) : Dv (k + l + 1) (n + p) (-F.mul x y) (X * Y) := by
  have hr := h.2.2.mul g.2.2
  have hc := h.2.1.mul g.2.1
  have hx : IsDouble y := by simpa using isDouble_neg g.1
  have ha := abs_range hc hkl (hr.safe hs)
  rw [_root_.mul_neg, abs_neg] at ha
  have hne := (hF.mul x y h.1 hx ha).neg
  rw [← _root_.mul_neg] at hne
  have := round_val hc hkl (hr.safe hs) hne
  exact ⟨this.1, this.2, hr⟩

theorem Dv.div_neg {k l n p : Nat} {x X y Y : ℝ} (h : Dv k n (-x) X) (g : Dv l p y Y) (hkl : k + l ≤ 1000) (hs : n + p ≤ 280) : Dv (k + l + 1) (n + p) (-F.div x y) (X / Y) := by
  have hr := h.2.2.div g.2.2
  have hc := h.2.1.div g.2.1
  have hx : IsDouble x := by simpa using isDouble_neg h.1
  have ha := abs_range hc hkl (hr.safe hs)
  rw [_root_.neg_div, abs_neg] at ha
  have hne := (hF.div x y hx g.1 g.2.1.pos.ne' ha).neg
  rw [← _root_.neg_div] at hne
  have := round_val hc hkl (hr.safe hs) hne
  exact ⟨this.1, this.2, hr⟩

/-- Taking away a negative number. -/
theorem Dv.sub_neg (m q : Nat) {k l n p : Nat} {x X y Y : ℝ} (h : Dv k n x X) (g : Dv l p (-y) Y) (hk : k ≤ m) (hl : l ≤ m) (hm : m ≤ 1000) (hn : n ≤ q) (hp : p ≤ q) (hs : q + 1 ≤ 280) :
    Dv (m + 1) (q + 1) (F.sub x y) (X + Y) := by
  have hr := h.2.2.add g.2.2 hn hp
  have hc := h.2.1.add g.2.1 hk hl
  have hy : IsDouble y := by simpa using isDouble_neg g.1
  have ha := abs_range hc hm (hr.safe hs)
  rw [← sub_eq_add_neg] at ha hc
  have := round_val hc hm (hr.safe hs) (hF.sub x y h.1 hy ha)
  exact ⟨this.1, this.2, hr⟩

theorem Dv.sub_half {k l n p r : Nat} {x X y Y : ℝ} (h : Dv k n x X) (g : Dv l p y Y) (hkl : 2 * k + l + 1 ≤ 1000) (hs : 2 * Y ≤ X) (hr : Rng r (X - Y)) (hn : r ≤ 280) :
    Dv (2 * k + l + 1 + 1) r (F.sub x y) (X - Y) := by
  have hc := h.2.1.sub_half g.2.1 hkl hs
  have := round_val hc hkl (hr.safe hn) (hF.sub x y h.1 g.1 (abs_range hc hkl (hr.safe hn)))
  exact ⟨this.1, this.2, hr⟩

/-- Adding a small negative double. -/
theorem Dv.add_small {k n r : Nat} {x X Y : ℝ} (h : Dv k n x X) (hY : IsDouble Y) (hY0 : Y ≤ 0) (hk : k + 1 ≤ 1000) (hs : 2 * ((k : ℝ) + 1) * (-Y) ≤ X) (hr : Rng r (X + Y)) (hn : r ≤ 280) :
    Dv (k + 2) r (F.add x Y) (X + Y) := by
  have hc := h.2.1.sub_small (by omega) (neg_nonneg.2 hY0) hs
  rw [sub_neg_eq_add, sub_neg_eq_add] at hc
  have := round_val hc hk (hr.safe hn) (hF.add x Y h.1 hY (abs_range hc hk (hr.safe hn)))
  exact ⟨this.1, this.2, hr⟩

end
end TicTac
end
