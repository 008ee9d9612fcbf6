import Verif.Spec.Double
import Mathlib.Data.Int.Log
import Mathlib.Algebra.Order.Round
/-! Relative errors of double arithmetic. -/
noncomputable section
namespace TicTac
open Spec

/-- Unit roundoff. -/
def ulpHalf : ℝ := 1 / 2 ^ 53

theorem u_pos : 0 < ulpHalf := by unfold ulpHalf; positivity
theorem u_small : ulpHalf ≤ 1 / 10 ^ 15 := by unfold ulpHalf; norm_num
theorem one_sub_u_pos : 0 < 1 - ulpHalf := by have := u_small; norm_num at this ⊢; linarith

theorem exists_near_pos {a : ℝ} (h1 : (2 : ℝ) ^ (-1022 : ℤ) ≤ a) (h2 : a ≤ (2 : ℝ) ^ (1023 : ℤ)) : ∃ m e, (Dbl.fin false m e).OK ∧ |(m : ℝ) * (2 : ℝ) ^ e - a| ≤ ulpHalf * a := by
  have ha : 0 < a := lt_of_lt_of_le (by positivity) h1
  have hlo : (-1022 : ℤ) ≤ Int.log 2 a := by
    rw [← Int.zpow_le_iff_le_log (by decide) ha]; exact_mod_cast h1
  have hup : Int.log 2 a ≤ 1023 := by
    have : Int.log 2 a ≤ Int.log 2 ((2 : ℝ) ^ (1023 : ℤ)) := Int.log_mono_right ha h2
    have h3 : Int.log 2 (((2 : ℕ) : ℝ) ^ (1023 : ℤ)) = 1023 := Int.log_zpow (by decide) _
    push_cast at h3
    omega
  obtain ⟨L, hL⟩ : ∃ L, L = Int.log 2 a := ⟨_, rfl⟩
  have l1 : (2 : ℝ) ^ L ≤ a := by have := Int.zpow_log_le_self (b := 2) (by decide) ha; rw [hL]; exact_mod_cast this
  have l2 : a < (2 : ℝ) ^ (L + 1) := by have := Int.lt_zpow_succ_log_self (b := 2) (by decide) a; rw [hL]; exact_mod_cast this
  rw [← hL] at hlo hup
  obtain ⟨e, he⟩ : ∃ e, e = L - 52 := ⟨_, rfl⟩
  have hp : (0 : ℝ) < (2 : ℝ) ^ e := by positivity
  have e52 : (2 : ℝ) ^ L = 2 ^ 52 * (2 : ℝ) ^ e := by rw [he, zpow_sub₀ (by norm_num)]; norm_num; ring
  have e53 : (2 : ℝ) ^ (L + 1) = 2 ^ 53 * (2 : ℝ) ^ e := by rw [zpow_add₀ (by norm_num), e52]; norm_num; ring
  obtain ⟨x, hx⟩ : ∃ x, x = a / (2 : ℝ) ^ e := ⟨_, rfl⟩
  have hax : a = x * (2 : ℝ) ^ e := by rw [hx]; field_simp
  have x1 : (2 : ℝ) ^ 52 ≤ x := by rw [hx, le_div_iff₀ hp, ← e52]; exact l1
  have x2 : x < (2 : ℝ) ^ 53 := by rw [hx, div_lt_iff₀ hp, ← e53]; exact l2
  have r0 := abs_sub_round x
  obtain ⟨z, hz⟩ : ∃ z : ℤ, z = round x := ⟨_, rfl⟩
  rw [← hz] at r0
  have r1 := abs_le.1 r0
  have z1 : (2 : ℤ) ^ 52 ≤ z := by
    have : ((2 : ℤ) ^ 52 : ℝ) - 1 < z := by push_cast; linarith [r1.2]
    have h : (2 : ℤ) ^ 52 - 1 < z := by exact_mod_cast this
    omega
  have z2 : z ≤ (2 : ℤ) ^ 53 := by
    have : (z : ℝ) < ((2 : ℤ) ^ 53 : ℝ) + 1 := by push_cast; linarith [r1.1]
    have h : z < (2 : ℤ) ^ 53 + 1 := by exact_mod_cast this
    omega
  have err : |(z : ℝ) * (2 : ℝ) ^ e - a| ≤ ulpHalf * a := by
    rw [hax, ← sub_mul, abs_mul, abs_of_pos hp, ← mul_assoc, abs_sub_comm]
    refine mul_le_mul_of_nonneg_right (r0.trans ?_) hp.le
    unfold ulpHalf
    calc (1 : ℝ) / 2 = 1 / 2 ^ 53 * 2 ^ 52 := by norm_num
      _ ≤ 1 / 2 ^ 53 * x := by gcongr
  obtain ⟨n, rfl⟩ : ∃ n : ℕ, z = n := ⟨z.toNat, by omega⟩
  rcases Nat.lt_or_ge n (2 ^ 53) with hn | hn
  · refine ⟨n, e, ⟨hn, by omega, by omega, Or.inl (by omega)⟩, ?_⟩
    simpa using err
  · have hn' : n = 2 ^ 53 := by omega
    have hLn : L ≠ 1023 := by
      intro h
      have : a = (2 : ℝ) ^ L := le_antisymm (by rw [h]; exact h2) l1
      have hx' : x = 2 ^ 52 := by
        have h' := hax.symm.trans (this.trans e52)
        exact mul_right_cancel₀ hp.ne' h'
      rw [hx', hn'] at r1
      norm_num at r1
    refine ⟨2 ^ 52, e + 1, ⟨by norm_num, by omega, by omega, Or.inl (le_refl _)⟩, ?_⟩
    have : ((2 ^ 52 : ℕ) : ℝ) * (2 : ℝ) ^ (e + 1) = ((n : ℤ) : ℝ) * (2 : ℝ) ^ e := by
      rw [hn', zpow_add₀ (by norm_num)]; push_cast; ring
    rw [this]; exact err

/-- A nearest double of a positive number in the range of normal doubles. -/
theorem nearest_rel {v r : ℝ} (h : Nearest v r) (h1 : (2 : ℝ) ^ (-1022 : ℤ) ≤ v) (h2 : v ≤ (2 : ℝ) ^ (1023 : ℤ)) : |r - v| ≤ ulpHalf * v := by
  obtain ⟨m, e, hok, hle⟩ := exists_near_pos h1 h2
  refine (h.2 _ ⟨false, m, e, hok, rfl⟩).trans ?_
  unfold dblValue
  simpa using hle

/-- Integers are doubles. -/
theorem double_nat (n : Nat) (h : n < 2 ^ 53) : IsDouble n := by
  rcases Nat.eq_zero_or_pos n with rfl | hn
  · exact ⟨false, 0, -1074, ⟨by norm_num, by norm_num, by norm_num, Or.inr rfl⟩, by simp [dblValue]⟩
  · have h1 := Nat.log_lt_of_lt_pow hn.ne' h
    have h2 := Nat.pow_log_le_self 2 hn.ne'
    have h3 := Nat.lt_pow_succ_log_self (b := 2) (by decide) n
    obtain ⟨l, hl⟩ : ∃ l, l = Nat.log 2 n := ⟨_, rfl⟩
    rw [← hl] at h1 h2 h3
    have e1 : 2 ^ l * 2 ^ (52 - l) = 2 ^ 52 := by rw [← pow_add]; congr 1; omega
    have e2 : 2 ^ (l + 1) * 2 ^ (52 - l) = 2 ^ 53 := by rw [← pow_add]; congr 1; omega
    refine ⟨false, n * 2 ^ (52 - l), -((52 - l : ℕ) : ℤ), ⟨?_, by omega, by omega, Or.inl ?_⟩, ?_⟩
    · rw [← e2]; exact Nat.mul_lt_mul_of_pos_right h3 (by positivity)
    · rw [← e1]; exact Nat.mul_le_mul_right _ h2
    · unfold dblValue
      rw [zpow_neg, zpow_natCast]
      push_cast
      field_simp

/-- `x` is `X` up to `k` roundings. -/
def Close (k : Nat) (x X : ℝ) : Prop := 0 < X ∧ X * (1 - ulpHalf) ^ k ≤ x ∧ x * (1 - ulpHalf) ^ k ≤ X

/-- A double that is `X` up to `k` roundings. -/
def Val (k : Nat) (x X : ℝ) : Prop := IsDouble x ∧ Close k x X

theorem pow_u_pos (k : Nat) : 0 < (1 - ulpHalf) ^ k := pow_pos one_sub_u_pos k
theorem pow_u_le_one (k : Nat) : (1 - ulpHalf) ^ k ≤ 1 := pow_le_one₀ one_sub_u_pos.le (by have := u_pos; linarith)
theorem pow_u_ge (k : Nat) : 1 - k * ulpHalf ≤ (1 - ulpHalf) ^ k := by
  have := one_add_mul_le_pow (a := -ulpHalf) (by have := u_small; norm_num at this; linarith) k
  calc 1 - k * ulpHalf = 1 + k * (-ulpHalf) := by ring
    _ ≤ (1 + -ulpHalf) ^ k := this
    _ = _ := by ring

theorem pow_u_half {k : Nat} (h : k ≤ 1000) : 1 / 2 ≤ (1 - ulpHalf) ^ k := by
  refine le_trans ?_ (pow_u_ge k)
  have hk : (k : ℝ) ≤ 1000 := by exact_mod_cast h
  have := u_small
  have h2 : (k : ℝ) * ulpHalf ≤ 1000 * (1 / 10 ^ 15) := mul_le_mul hk this u_pos.le (by norm_num)
  norm_num at h2 ⊢
  linarith

theorem Close.pos {k : Nat} {x X : ℝ} (h : Close k x X) : 0 < x := lt_of_lt_of_le (mul_pos h.1 (pow_u_pos k)) h.2.1

theorem Close.refl {X : ℝ} (h : 0 < X) (k : Nat) : Close k X X :=
  ⟨h, mul_le_of_le_one_right h.le (pow_u_le_one k), mul_le_of_le_one_right h.le (pow_u_le_one k)⟩

theorem Close.mono {k l : Nat} (hkl : k ≤ l) {x X : ℝ} (h : Close k x X) : Close l x X := by
  have e : (1 - ulpHalf) ^ l ≤ (1 - ulpHalf) ^ k := pow_le_pow_of_le_one one_sub_u_pos.le (by have := u_pos; linarith) hkl
  exact ⟨h.1, (mul_le_mul_of_nonneg_left e h.1.le).trans h.2.1, (mul_le_mul_of_nonneg_left e h.pos.le).trans h.2.2⟩

theorem Close.mul {k l : Nat} {x X y Y : ℝ} (h : Close k x X) (g : Close l y Y) : Close (k + l) (x * y) (X * Y) := by
  refine ⟨mul_pos h.1 g.1, ?_, ?_⟩
  · calc X * Y * (1 - ulpHalf) ^ (k + l) = (X * (1 - ulpHalf) ^ k) * (Y * (1 - ulpHalf) ^ l) := by rw [pow_add]; ring
      _ ≤ x * y := mul_le_mul h.2.1 g.2.1 (mul_pos g.1 (pow_u_pos l)).le h.pos.le
  · calc x * y * (1 - ulpHalf) ^ (k + l) = (x * (1 - ulpHalf) ^ k) * (y * (1 - ulpHalf) ^ l) := by rw [pow_add]; ring
      _ ≤ X * Y := mul_le_mul h.2.2 g.2.2 (mul_pos g.pos (pow_u_pos l)).le h.1.le

theorem Close.inv {k : Nat} {x X : ℝ} (h : Close k x X) : Close k x⁻¹ X⁻¹ := by
  have hx := h.pos
  refine ⟨inv_pos.2 h.1, ?_, ?_⟩
  · rw [inv_mul_le_iff₀ h.1, ← div_eq_mul_inv, le_div_iff₀ hx, mul_comm]; exact h.2.2
  · rw [inv_mul_le_iff₀ hx, ← div_eq_mul_inv, le_div_iff₀ h.1, mul_comm]; exact h.2.1

theorem Close.div {k l : Nat} {x X y Y : ℝ} (h : Close k x X) (g : Close l y Y) : Close (k + l) (x / y) (X / Y) := by
  rw [div_eq_mul_inv, div_eq_mul_inv]; exact h.mul g.inv

theorem Close.add {k l m : Nat} {x X y Y : ℝ} (h : Close k x X) (g : Close l y Y) (hk : k ≤ m) (hl : l ≤ m) : Close m (x + y) (X + Y) := by
  have h := h.mono hk
  have g := g.mono hl
  exact ⟨add_pos h.1 g.1, by rw [add_mul]; exact add_le_add h.2.1 g.2.1, by rw [add_mul]; exact add_le_add h.2.2 g.2.2⟩

theorem Close.sqrt {k : Nat} {x X : ℝ} (h : Close k x X) : Close k (Real.sqrt x) (Real.sqrt X) := by
  have key : (1 - ulpHalf) ^ k ≤ Real.sqrt ((1 - ulpHalf) ^ k) := by
    apply Real.le_sqrt_of_sq_le
    rw [sq]
    exact mul_le_of_le_one_right (pow_u_pos k).le (pow_u_le_one k)
  refine ⟨Real.sqrt_pos.2 h.1, ?_, ?_⟩
  · calc Real.sqrt X * (1 - ulpHalf) ^ k ≤ Real.sqrt X * Real.sqrt ((1 - ulpHalf) ^ k) := mul_le_mul_of_nonneg_left key (Real.sqrt_nonneg _)
      _ = Real.sqrt (X * (1 - ulpHalf) ^ k) := (Real.sqrt_mul h.1.le _).symm
      _ ≤ Real.sqrt x := Real.sqrt_le_sqrt h.2.1
  · calc Real.sqrt x * (1 - ulpHalf) ^ k ≤ Real.sqrt x * Real.sqrt ((1 - ulpHalf) ^ k) := mul_le_mul_of_nonneg_left key (Real.sqrt_nonneg _)
      _ = Real.sqrt (x * (1 - ulpHalf) ^ k) := (Real.sqrt_mul h.pos.le _).symm
      _ ≤ Real.sqrt X := Real.sqrt_le_sqrt h.2.2

/-- A relative error of `u` is one rounding. -/
theorem close_of_rel {v r : ℝ} (hv : 0 < v) (h : |r - v| ≤ ulpHalf * v) : Close 1 r v := by
  have := abs_le.1 h
  have hu := u_pos
  refine ⟨hv, by rw [pow_one]; linarith, ?_⟩
  rw [pow_one]
  have h2 : r ≤ v * (1 + ulpHalf) := by linarith
  calc r * (1 - ulpHalf) ≤ v * (1 + ulpHalf) * (1 - ulpHalf) := mul_le_mul_of_nonneg_right h2 one_sub_u_pos.le
    _ = v * (1 - ulpHalf ^ 2) := by ring
    _ ≤ v := mul_le_of_le_one_right hv.le (by have := sq_nonneg ulpHalf; linarith)

theorem Close.trans {k l : Nat} {x y z : ℝ} (h : Close k x y) (g : Close l y z) : Close (k + l) x z := by
  refine ⟨g.1, ?_, ?_⟩
  · calc z * (1 - ulpHalf) ^ (k + l) = (z * (1 - ulpHalf) ^ l) * (1 - ulpHalf) ^ k := by rw [pow_add]; ring
      _ ≤ y * (1 - ulpHalf) ^ k := mul_le_mul_of_nonneg_right g.2.1 (pow_u_pos k).le
      _ ≤ x := h.2.1
  · calc x * (1 - ulpHalf) ^ (k + l) = (x * (1 - ulpHalf) ^ k) * (1 - ulpHalf) ^ l := by rw [pow_add]; ring
      _ ≤ y * (1 - ulpHalf) ^ l := mul_le_mul_of_nonneg_right h.2.2 (pow_u_pos l).le
      _ ≤ z := g.2.2

/-- Values for which no operation over- or underflows. -/
def Safe (X : ℝ) : Prop := (1 : ℝ) / 10 ^ 280 ≤ X ∧ X ≤ 10 ^ 280

set_option exponentiation.threshold 3000 in
theorem safe_range {k : Nat} {v V : ℝ} (h : Close k v V) (hk : k ≤ 1000) (hV : Safe V) : (2 : ℝ) ^ (-1022 : ℤ) ≤ v ∧ v ≤ (2 : ℝ) ^ (1023 : ℤ) := by
  have hh := pow_u_half hk
  have a1 : (2 : ℝ) ^ (-1022 : ℤ) ≤ 1 / 10 ^ 280 * (1 / 2) := by norm_num
  have a2 : (10 : ℝ) ^ 280 * 2 ≤ (2 : ℝ) ^ (1023 : ℤ) := by norm_num
  constructor
  · refine a1.trans (le_trans ?_ h.2.1)
    exact mul_le_mul hV.1 hh (by norm_num) h.1.le
  · refine le_trans ?_ a2
    have h1 : v * (1 / 2) ≤ V := (mul_le_mul_of_nonneg_left hh h.pos.le).trans h.2.2
    have := hV.2
    generalize (10 : ℝ) ^ 280 = B at this ⊢
    linarith

theorem round_val {k : Nat} {v V r : ℝ} (h : Close k v V) (hk : k ≤ 1000) (hV : Safe V) (hr : Nearest v r) : Val (k + 1) r V := by
  obtain ⟨h1, h2⟩ := safe_range h hk hV
  refine ⟨hr.1, ?_⟩
  have := (close_of_rel h.pos (nearest_rel hr h1 h2)).trans h
  rwa [Nat.add_comm] at this

theorem abs_range {k : Nat} {v V : ℝ} (h : Close k v V) (hk : k ≤ 1000) (hV : Safe V) : |v| ≤ 2 ^ 1023 := by
  rw [abs_of_pos h.pos]
  have := (safe_range h hk hV).2
  exact_mod_cast this

/-- Order of magnitude. -/
def Rng (n : Nat) (X : ℝ) : Prop := (1 : ℝ) / 10 ^ n ≤ X ∧ X ≤ 10 ^ n

theorem Rng.pos {n : Nat} {X : ℝ} (h : Rng n X) : 0 < X := lt_of_lt_of_le (by positivity) h.1

theorem Rng.mono {n m : Nat} (hnm : n ≤ m) {X : ℝ} (h : Rng n X) : Rng m X := by
  have e : (10 : ℝ) ^ n ≤ 10 ^ m := pow_le_pow_right₀ (by norm_num) hnm
  exact ⟨(one_div_le_one_div_of_le (by positivity) e).trans h.1, h.2.trans e⟩

theorem Rng.safe {n : Nat} {X : ℝ} (h : Rng n X) (hn : n ≤ 280) : Safe X := h.mono hn

theorem Rng.mul {n m : Nat} {X Y : ℝ} (h : Rng n X) (g : Rng m Y) : Rng (n + m) (X * Y) := by
  constructor
  · rw [pow_add, one_div_mul_one_div_rev .. |>.symm, mul_comm]
    exact mul_le_mul h.1 g.1 (by positivity) h.pos.le
  · rw [pow_add]; exact mul_le_mul h.2 g.2 g.pos.le (by positivity)

theorem Rng.inv {n : Nat} {X : ℝ} (h : Rng n X) : Rng n X⁻¹ := by
  constructor
  · rw [one_div]; exact (inv_le_inv₀ (by positivity) h.pos).2 h.2
  · have := (inv_le_inv₀ h.pos (by positivity)).2 h.1
    rwa [one_div, inv_inv] at this

theorem Rng.div {n m : Nat} {X Y : ℝ} (h : Rng n X) (g : Rng m Y) : Rng (n + m) (X / Y) := by
  rw [div_eq_mul_inv]; exact h.mul g.inv

theorem Rng.add {n m p : Nat} {X Y : ℝ} (h : Rng n X) (g : Rng m Y) (hn : n ≤ p) (hm : m ≤ p) : Rng (p + 1) (X + Y) := by
  have h' := h.mono hn
  have g' := g.mono hm
  constructor
  · exact ((h'.mono (Nat.le_succ p)).1).trans (by linarith [g.pos])
  · rw [pow_succ]; linarith [h'.2, g'.2, h.pos, g.pos, pow_pos (show (0 : ℝ) < 10 by norm_num) p]

theorem Rng.sqrt {n : Nat} {X : ℝ} (h : Rng n X) : Rng n (Real.sqrt X) := by
  have h1 : (1 : ℝ) ≤ 10 ^ n := one_le_pow₀ (by norm_num)
  constructor
  · apply Real.le_sqrt_of_sq_le
    refine le_trans ?_ h.1
    rw [sq]
    exact mul_le_of_le_one_right (by positivity) (by rw [div_le_one (by positivity)]; exact h1)
  · rw [Real.sqrt_le_left (by positivity)]
    refine h.2.trans ?_
    rw [sq]
    exact le_mul_of_one_le_right (by positivity) h1

/-- A double that is `X` up to `k` roundings, with the order of magnitude of `X`. -/
def Dv (k n : Nat) (x X : ℝ) : Prop := IsDouble x ∧ Close k x X ∧ Rng n X

section
variable {F : Fpu} (hF : IEEE F)
include hF

theorem Dv.mul {k l n p : Nat} {x X y Y : ℝ} (h : Dv k n x X) (g : Dv l p y Y) (hkl : k + l ≤ 1000) (hs : n + p ≤ 280) : Dv (k + l + 1) (n + p) (F.mul x y) (X * Y) := by
  have hr := h.2.2.mul g.2.2
  have hc := h.2.1.mul g.2.1
  have := round_val hc hkl (hr.safe hs) (hF.mul x y h.1 g.1 (abs_range hc hkl (hr.safe hs)))
  exact ⟨this.1, this.2, hr⟩

theorem Dv.div {k l n p : Nat} {x X y Y : ℝ} (h : Dv k n x X) (g : Dv l p y Y) (hkl : k + l ≤ 1000) (hs : n + p ≤ 280) : Dv (k + l + 1) (n + p) (F.div x y) (X / Y) := by
  have hr := h.2.2.div g.2.2
  have hc := h.2.1.div g.2.1
  have := round_val hc hkl (hr.safe hs) (hF.div x y h.1 g.1 g.2.1.pos.ne' (abs_range hc hkl (hr.safe hs)))
  exact ⟨this.1, this.2, hr⟩

theorem Dv.add (m q : Nat) {k l n p : Nat} {x X y Y : ℝ} (h : Dv k n x X) (g : Dv l p y Y) (hk : k ≤ m) (hl : l ≤ m) (hm : m ≤ 1000) (hn : n ≤ q) (hp : p ≤ q) (hs : q + 1 ≤ 280) :
    Dv (m + 1) (q + 1) (F.add x y) (X + Y) := by
  have hr := h.2.2.add g.2.2 hn hp
  have hc := h.2.1.add g.2.1 hk hl
  have := round_val hc hm (hr.safe hs) (hF.add x y h.1 g.1 (abs_range hc hm (hr.safe hs)))
  exact ⟨this.1, this.2, hr⟩

theorem Dv.sqrt {k n : Nat} {x X : ℝ} (h : Dv k n x X) (hk : k ≤ 1000) (hs : n ≤ 280) : Dv (k + 1) n (F.sqrt x) (Real.sqrt X) := by
  have := round_val h.2.1.sqrt hk (h.2.2.sqrt.safe hs) (hF.sqrt x h.1 h.2.1.pos.le)
  exact ⟨this.1, this.2, h.2.2.sqrt⟩

theorem Dv.lit {n : Nat} {v : ℝ} (hr : Rng n v) (hn : n ≤ 280) : Dv 1 n (F.lit v) v := by
  have hv := hr.pos
  have := round_val (k := 0) (Close.refl hv 0) (by decide) (hr.safe hn) (hF.lit v (abs_range (Close.refl hv 0) (by decide) (hr.safe hn)))
  exact ⟨this.1, this.2, hr⟩

end

theorem Dv.exact {n : Nat} {x : ℝ} (h : IsDouble x) (hr : Rng n x) : Dv 0 n x x := ⟨h, Close.refl hr.pos 0, hr⟩

theorem Dv.nat {n p : Nat} (h : n < 2 ^ 53) (hr : Rng p (n : ℝ)) : Dv 0 p (n : ℝ) n := Dv.exact (double_nat n h) hr

/-- `k` roundings are a relative error of `1.001 k u`. -/
theorem Close.rel {k : Nat} (hk : k ≤ 1000) {x X : ℝ} (h : Close k x X) : |x - X| ≤ 1.001 * k * ulpHalf * X := by
  have hu := u_pos
  have hg := pow_u_ge k
  have hX := h.1
  have hh := pow_u_half hk
  have hk' : (k : ℝ) ≤ 1000 := by exact_mod_cast hk
  have hku : (k : ℝ) * ulpHalf ≤ 1 / 10 ^ 12 := by
    calc (k : ℝ) * ulpHalf ≤ 1000 * (1 / 10 ^ 15) := mul_le_mul hk' u_small hu.le (by norm_num)
      _ = 1 / 10 ^ 12 := by norm_num
  have hku0 : 0 ≤ (k : ℝ) * ulpHalf := by positivity
  rw [abs_le]
  constructor
  · have h1 : X * (1 - k * ulpHalf) ≤ x := (mul_le_mul_of_nonneg_left hg hX.le).trans h.2.1
    have h2 : 0 ≤ (k * ulpHalf) * X := mul_nonneg hku0 hX.le
    linarith [h1, h2]
  · have h1 : x * (1 - k * ulpHalf) ≤ X := (mul_le_mul_of_nonneg_left hg h.pos.le).trans h.2.2
    have hx2 : x ≤ X * (1.001 : ℝ) := by
      have h3 : x * (1 - 1 / 10 ^ 12) ≤ X := le_trans (mul_le_mul_of_nonneg_left (by linarith) h.pos.le) h1
      norm_num at h3 ⊢
      linarith [h.pos]
    have h4 : x * (k * ulpHalf) ≤ X * 1.001 * (k * ulpHalf) := mul_le_mul_of_nonneg_right hx2 hku0
    linarith

end TicTac
end
