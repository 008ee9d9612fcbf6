import Verif.Lemmas.Sturm
import Verif.Lemmas.Chp
import Verif.Lemmas.GaussLegendre
import Mathlib.Analysis.SpecialFunctions.Sqrt
import Mathlib.Analysis.Real.Pi.Bounds
import Mathlib.Analysis.SpecialFunctions.Trigonometric.Bounds
/-! Where the zeros of the Legendre polynomials lie: Sturm comparison for `√sin θ · P_N(cos θ)`. -/
noncomputable section
namespace TicTac
open Set Polynomial

/-- `√sin θ · P_N(cos θ)`. -/
def legF (N : Nat) (x : ℝ) : ℝ := Real.sqrt (Real.sin x) * (Spec.legendre N).eval (Real.cos x)
/-- Its derivative. -/
def legG (N : Nat) (x : ℝ) : ℝ :=
  Real.cos x / (2 * Real.sqrt (Real.sin x)) * (Spec.legendre N).eval (Real.cos x) -
    Real.sqrt (Real.sin x) * (Real.sin x * (derivative (Spec.legendre N)).eval (Real.cos x))
/-- The potential of its oscillator equation. -/
def legPot (N : Nat) (x : ℝ) : ℝ := ((N : ℝ) + 1/2) ^ 2 + 1 / (4 * Real.sin x ^ 2)

theorem eval_cos_deriv (p : ℝ[X]) (x : ℝ) : HasDerivAt (fun y => p.eval (Real.cos y)) (-(Real.sin x * (derivative p).eval (Real.cos x))) x := by
  have := (p.hasDerivAt (Real.cos x)).comp x (Real.hasDerivAt_cos x)
  refine this.congr_deriv ?_
  ring

theorem leg_osc (N : Nat) (a b : ℝ) (ha : 0 < a) (hb : b < Real.pi) : Oscillates (legF N) (legG N) (legPot N) a b := by
  have hsin : ∀ x ∈ Icc a b, 0 < Real.sin x := fun x hx => Real.sin_pos_of_pos_of_lt_pi (by linarith [hx.1]) (by linarith [hx.2])
  have hsq : ∀ x ∈ Icc a b, HasDerivAt (fun y => Real.sqrt (Real.sin y)) (Real.cos x / (2 * Real.sqrt (Real.sin x))) x :=
    fun x hx => (Real.hasDerivAt_sin x).sqrt (hsin x hx).ne'
  constructor
  · intro x hx
    have := (hsq x hx).mul (eval_cos_deriv (Spec.legendre N) x)
    refine this.congr_deriv ?_
    unfold legG
    ring
  · intro x hx
    have hs := hsin x hx
    have hs0 : Real.sqrt (Real.sin x) ≠ 0 := (Real.sqrt_pos.2 hs).ne'
    have h1 := ((Real.hasDerivAt_cos x).div ((hsq x hx).const_mul 2) (by positivity)).mul (eval_cos_deriv (Spec.legendre N) x)
    have h2 := (hsq x hx).mul ((Real.hasDerivAt_sin x).mul (eval_cos_deriv (derivative (Spec.legendre N)) x))
    refine (h1.sub h2).congr_deriv ?_
    simp only [Pi.mul_apply, Pi.div_apply]
    clear h1 h2
    have ode := legendre_second N (Real.cos x)
    have e1 : 1 - Real.cos x ^ 2 = Real.sin x ^ 2 := by rw [Real.sin_sq]
    rw [e1] at ode
    have cs : Real.cos x ^ 2 = 1 - Real.sin x ^ 2 := by rw [Real.sin_sq]; ring
    unfold legF legPot
    generalize (derivative (derivative (Spec.legendre N))).eval (Real.cos x) = p2 at *
    generalize (derivative (Spec.legendre N)).eval (Real.cos x) = p1 at *
    generalize (Spec.legendre N).eval (Real.cos x) = p0 at *
    have hS : Real.sin x = Real.sqrt (Real.sin x) ^ 2 := (Real.sq_sqrt hs.le).symm
    generalize Real.sqrt (Real.sin x) = S at *
    generalize Real.cos x = c at *
    rw [hS] at ode cs ⊢
    field_simp
    have ode' : S ^ 4 * p2 = 2 * c * p1 - N * (N + 1) * p0 := by linear_combination ode
    linear_combination 16 * S ^ 4 * ode - 4 * p0 * cs

theorem legPot_gt (N : Nat) (x : ℝ) (h0 : 0 < x) (hp : x < Real.pi) : ((N : ℝ) + 1/2) ^ 2 < legPot N x := by
  have := Real.sin_pos_of_pos_of_lt_pi h0 hp
  unfold legPot
  have : 0 < 1 / (4 * Real.sin x ^ 2) := by positivity
  linarith

theorem legF_zero_iff (N : Nat) (x : ℝ) (h0 : 0 < x) (hp : x < Real.pi) : legF N x = 0 ↔ (Spec.legendre N).eval (Real.cos x) = 0 := by
  have := Real.sqrt_pos.2 (Real.sin_pos_of_pos_of_lt_pi h0 hp)
  unfold legF
  rw [mul_eq_zero]
  constructor
  · rintro (h | h)
    · exact absurd h this.ne'
    · exact h
  · exact Or.inr

/-- The zeros of `P_N(cos θ)` in increasing order of the angle. -/
structure LegZeros (N : Nat) (h : ℝ) (th : Nat → ℝ) : Prop where
  loc : ∀ j : Nat, 1 ≤ j → j ≤ N → ((j : ℝ) - 3/4) * h < th j ∧ th j < ((j : ℝ) + 1/4) * h
  root : ∀ j : Nat, 1 ≤ j → j ≤ N → (Spec.legendre N).eval (Real.cos (th j)) = 0
  all : ∀ y : ℝ, 0 < y → y < Real.pi → (Spec.legendre N).eval (Real.cos y) = 0 → ∃ j : Nat, 1 ≤ j ∧ j ≤ N ∧ y = th j

theorem legZeros_exist (N : Nat) : ∃ th, LegZeros N (Real.pi / ((N : ℝ) + 1/2)) th := by
  have hM : (0 : ℝ) < (N : ℝ) + 1/2 := by positivity
  have hpi := Real.pi_pos
  set h := Real.pi / ((N : ℝ) + 1/2) with hh
  have hhp : 0 < h := div_pos hpi hM
  have hmul : ((N : ℝ) + 1/2) * h = Real.pi := by rw [hh]; field_simp
  have ex : ∀ j : Nat, 1 ≤ j → j ≤ N → ∃ y, (((j : ℝ) - 3/4) * h < y ∧ y < ((j : ℝ) + 1/4) * h) ∧ (Spec.legendre N).eval (Real.cos y) = 0 := by
    intro j h1 hN
    have h1r : (1 : ℝ) ≤ j := by exact_mod_cast h1
    have hNr : (j : ℝ) ≤ N := by exact_mod_cast hN
    have a0 : 0 < ((j : ℝ) - 3/4) * h := mul_pos (by linarith) hhp
    have b0 : ((j : ℝ) + 1/4) * h < Real.pi := by rw [← hmul]; exact mul_lt_mul_of_pos_right (by linarith) hhp
    obtain ⟨z, hz, hz0⟩ := sturm_zero (a := ((j : ℝ) - 3/4) * h) (b := ((j : ℝ) + 1/4) * h) hM (by rw [← hh]; ring)
      (leg_osc N _ _ a0 b0) (fun x hx => legPot_gt N x (by linarith [hx.1]) (by linarith [hx.2]))
    exact ⟨z, hz, (legF_zero_iff N z (by linarith [hz.1]) (by linarith [hz.2])).1 hz0⟩
  classical
  refine ⟨fun j => if hj : 1 ≤ j ∧ j ≤ N then (ex j hj.1 hj.2).choose else 0, ?_⟩
  set th : Nat → ℝ := fun j => if hj : 1 ≤ j ∧ j ≤ N then (ex j hj.1 hj.2).choose else 0 with hth
  have sp : ∀ j : Nat, 1 ≤ j → j ≤ N → (((j : ℝ) - 3/4) * h < th j ∧ th j < ((j : ℝ) + 1/4) * h) ∧ (Spec.legendre N).eval (Real.cos (th j)) = 0 := by
    intro j h1 h2
    have : th j = (ex j h1 h2).choose := by rw [hth]; simp [h1, h2]
    rw [this]
    exact (ex j h1 h2).choose_spec
  refine ⟨fun j h1 h2 => (sp j h1 h2).1, fun j h1 h2 => (sp j h1 h2).2, ?_⟩
  have hmem : ∀ j : Nat, 1 ≤ j → j ≤ N → 0 < th j ∧ th j < Real.pi := by
    intro j h1 hN
    have h1r : (1 : ℝ) ≤ j := by exact_mod_cast h1
    have hNr : (j : ℝ) ≤ N := by exact_mod_cast hN
    have a0 : 0 < ((j : ℝ) - 3/4) * h := mul_pos (by linarith) hhp
    have b0 : ((j : ℝ) + 1/4) * h < Real.pi := by rw [← hmul]; exact mul_lt_mul_of_pos_right (by linarith) hhp
    obtain ⟨⟨c1, c2⟩, -⟩ := sp j h1 hN
    exact ⟨by linarith, by linarith⟩
  have hinj : ∀ i j : Nat, 1 ≤ i → i ≤ N → 1 ≤ j → j ≤ N → th i = th j → i = j := by
    have w : ∀ i j : Nat, 1 ≤ i → i ≤ N → 1 ≤ j → j ≤ N → i < j → th i < th j := by
      intro i j h1 h2 h3 h4 hij
      obtain ⟨⟨-, c2⟩, -⟩ := sp i h1 h2
      obtain ⟨⟨d1, -⟩, -⟩ := sp j h3 h4
      have : (i : ℝ) + 1 ≤ j := by exact_mod_cast hij
      have := mul_le_mul_of_nonneg_right (show (i : ℝ) + 1/4 ≤ (j : ℝ) - 3/4 by linarith) hhp.le
      linarith
    intro i j h1 h2 h3 h4 he
    rcases lt_trichotomy i j with h | h | h
    · exact absurd he (w i j h1 h2 h3 h4 h).ne
    · exact h
    · exact absurd he (w j i h3 h4 h1 h2 h).ne'
  have hset : (Finset.Icc 1 N).image (fun j => Real.cos (th j)) = (Spec.legendre N).roots.toFinset := by
    refine Finset.eq_of_subset_of_card_le ?_ ?_
    · intro x hx
      obtain ⟨j, hj, rfl⟩ := Finset.mem_image.1 hx
      rw [Finset.mem_Icc] at hj
      rw [Multiset.mem_toFinset, mem_roots (legendre_ne_zero N)]
      exact (sp j hj.1 hj.2).2
    · rw [Finset.card_image_of_injOn, Nat.card_Icc]
      · exact (Multiset.toFinset_card_le _).trans (by rw [(legendre_card_roots N).1]; omega)
      · intro i hi j hj he
        simp only [Finset.coe_Icc, mem_Icc] at hi hj
        have a := hmem i hi.1 hi.2
        have b := hmem j hj.1 hj.2
        exact hinj i j hi.1 hi.2 hj.1 hj.2 (Real.injOn_cos ⟨a.1.le, a.2.le⟩ ⟨b.1.le, b.2.le⟩ he)
  intro y hy0 hyp hy
  have : Real.cos y ∈ (Spec.legendre N).roots.toFinset := by
    rw [Multiset.mem_toFinset, mem_roots (legendre_ne_zero N)]; exact hy
  rw [← hset] at this
  obtain ⟨j, hj, he⟩ := Finset.mem_image.1 this
  rw [Finset.mem_Icc] at hj
  have a := hmem j hj.1 hj.2
  exact ⟨j, hj.1, hj.2, (Real.injOn_cos ⟨a.1.le, a.2.le⟩ ⟨hy0.le, hyp.le⟩ he).symm⟩

namespace LegZeros
variable {N : Nat} {th : Nat → ℝ}

theorem step_pos (N : Nat) : 0 < Real.pi / ((N : ℝ) + 1/2) := div_pos Real.pi_pos (by positivity)
theorem step_mul (N : Nat) : ((N : ℝ) + 1/2) * (Real.pi / ((N : ℝ) + 1/2)) = Real.pi := by
  have : (N : ℝ) + 1/2 ≠ 0 := by positivity
  field_simp

theorem mem (Z : LegZeros N (Real.pi / ((N : ℝ) + 1/2)) th) (j : Nat) (h1 : 1 ≤ j) (h2 : j ≤ N) : 0 < th j ∧ th j < Real.pi := by
  have hp := step_pos N
  have hm := step_mul N
  obtain ⟨a, b⟩ := Z.loc j h1 h2
  generalize Real.pi / ((N : ℝ) + 1/2) = h at *
  have h1r : (1 : ℝ) ≤ j := by exact_mod_cast h1
  have hNr : (j : ℝ) ≤ N := by exact_mod_cast h2
  have a0 : 0 < ((j : ℝ) - 3/4) * h := mul_pos (by linarith) hp
  have b0 : ((j : ℝ) + 1/4) * h < Real.pi := by rw [← hm]; exact mul_lt_mul_of_pos_right (by linarith) hp
  exact ⟨by linarith, by linarith⟩

theorem lt (Z : LegZeros N (Real.pi / ((N : ℝ) + 1/2)) th) (i j : Nat) (h1 : 1 ≤ i) (hij : i < j) (h2 : j ≤ N) : th i < th j := by
  have hp := step_pos N
  obtain ⟨-, c2⟩ := Z.loc i h1 (by omega)
  obtain ⟨d1, -⟩ := Z.loc j (by omega) h2
  have : (i : ℝ) + 1 ≤ j := by exact_mod_cast hij
  have := mul_le_mul_of_nonneg_right (show (i : ℝ) + 1/4 ≤ (j : ℝ) - 3/4 by linarith) hp.le
  linarith

theorem le (Z : LegZeros N (Real.pi / ((N : ℝ) + 1/2)) th) (i j : Nat) (h1 : 1 ≤ i) (hij : i ≤ j) (h2 : j ≤ N) : th i ≤ th j := by
  rcases hij.eq_or_lt with rfl | h
  · rfl
  · exact (Z.lt i j h1 h h2).le

theorem idx_lt (Z : LegZeros N (Real.pi / ((N : ℝ) + 1/2)) th) (i j : Nat) (h1 : 1 ≤ j) (h2 : i ≤ N) (h : th i < th j) : i < j := by
  by_contra hc
  exact absurd (Z.le j i h1 (by omega) h2) (not_le.2 h)

/-- No zero strictly between consecutive ones. -/
theorem between (Z : LegZeros N (Real.pi / ((N : ℝ) + 1/2)) th) (j : Nat) (h1 : 1 ≤ j) (h2 : j + 1 ≤ N) (y : ℝ) (ha : th j < y)
    (hb : y < th (j + 1)) : (Spec.legendre N).eval (Real.cos y) ≠ 0 := by
  intro h0
  have m1 := Z.mem j h1 (by omega)
  have m2 := Z.mem (j + 1) (by omega) h2
  obtain ⟨k, k1, k2, rfl⟩ := Z.all y (by linarith [m1.1]) (by linarith [m2.2]) h0
  have := Z.idx_lt j k k1 (by omega) ha
  have := Z.idx_lt k (j + 1) (by omega) k2 hb
  omega

theorem symm (Z : LegZeros N (Real.pi / ((N : ℝ) + 1/2)) th) (j : Nat) (h1 : 1 ≤ j) (h2 : j ≤ N) : th (N + 1 - j) = Real.pi - th j := by
  have m := Z.mem j h1 h2
  obtain ⟨k, k1, k2, hk⟩ := Z.all (Real.pi - th j) (by linarith) (by linarith) (by
    rw [Real.cos_pi_sub, legendre_eval_neg, Z.root j h1 h2, mul_zero])
  have hp := step_pos N
  have hm := step_mul N
  obtain ⟨a, b⟩ := Z.loc j h1 h2
  obtain ⟨c, d⟩ := Z.loc k k1 k2
  generalize Real.pi / ((N : ℝ) + 1/2) = h at *
  have u1 : (k : ℝ) < N + 1 - j + 1 := by
    by_contra hc
    push Not at hc
    have := mul_le_mul_of_nonneg_right hc hp.le
    nlinarith
  have u2 : (N : ℝ) + 1 - j < k + 1 := by
    by_contra hc
    push Not at hc
    have := mul_le_mul_of_nonneg_right hc hp.le
    nlinarith
  have v1 : k + j < N + 2 := by
    have : (k : ℝ) + j < N + 2 := by linarith
    exact_mod_cast this
  have v2 : N + 1 < k + j + 1 := by
    have : (N : ℝ) + 1 < k + j + 1 := by linarith
    exact_mod_cast this
  rw [hk]
  congr 1
  omega

theorem gap_lt (Z : LegZeros N (Real.pi / ((N : ℝ) + 1/2)) th) (j : Nat) (h1 : 1 ≤ j) (h2 : j + 1 ≤ N) :
    th (j + 1) < th j + Real.pi / ((N : ℝ) + 1/2) := by
  by_contra hc
  push Not at hc
  have m1 := Z.mem j h1 (by omega)
  have m2 := Z.mem (j + 1) (by omega) h2
  obtain ⟨z, hz, hz0⟩ := sturm_zero (a := th j) (b := th j + Real.pi / ((N : ℝ) + 1/2)) (w := (N : ℝ) + 1/2) (by positivity) rfl
    (leg_osc N _ _ m1.1 (by linarith [m2.2])) (fun x hx => legPot_gt N x (by linarith [hx.1, m1.1]) (by linarith [hx.2, m2.2]))
  have hzp : z < Real.pi := by linarith [hz.2, m2.2]
  exact Z.between j h1 h2 z hz.1 (by linarith [hz.2]) ((legF_zero_iff N z (by linarith [hz.1, m1.1]) hzp).1 hz0)

theorem sum_lt (Z : LegZeros N (Real.pi / ((N : ℝ) + 1/2)) th) (j k : Nat) (h1 : 1 ≤ j) (h2 : j + (k + 1) ≤ N) :
    th (j + (k + 1)) < th j + ((k : ℝ) + 1) * (Real.pi / ((N : ℝ) + 1/2)) := by
  induction k with
  | zero => simpa using Z.gap_lt j h1 h2
  | succ k ih =>
    have a := ih (by omega)
    have b := Z.gap_lt (j + (k + 1)) (by omega) (by omega)
    push_cast
    rw [show j + (k + 1 + 1) = j + (k + 1) + 1 by ring]
    linarith

/-- The starting angle of the Newton iteration lies before the zero. -/
theorem start_lt (Z : LegZeros N (Real.pi / ((N : ℝ) + 1/2)) th) (j : Nat) (h1 : 1 ≤ j) (h2 : 2 * j < N + 1) :
    ((j : ℝ) - 1/4) * (Real.pi / ((N : ℝ) + 1/2)) < th j := by
  obtain ⟨k, hk⟩ : ∃ k, N + 1 - j = j + (k + 1) := ⟨N + 1 - 2 * j - 1, by omega⟩
  have a := Z.sum_lt j k h1 (by omega)
  rw [← hk, Z.symm j h1 (by omega)] at a
  have hm := step_mul N
  generalize Real.pi / ((N : ℝ) + 1/2) = h at *
  have hkr : (k : ℝ) + 1 = N + 1 - 2 * j := by
    have : N + 1 = 2 * j + (k + 1) := by omega
    have : (N : ℝ) + 1 = 2 * j + (k + 1) := by exact_mod_cast this
    linarith
  rw [hkr] at a
  linarith

theorem lt_half (Z : LegZeros N (Real.pi / ((N : ℝ) + 1/2)) th) (j : Nat) (h1 : 1 ≤ j) (h2 : 2 * j < N + 1) : th j < Real.pi / 2 := by
  have := Z.lt j (N + 1 - j) h1 (by omega) (by omega)
  rw [Z.symm j h1 (by omega)] at this
  linarith

theorem sin_between (a x : ℝ) (h0 : 0 < a) (h1 : a < x) (h2 : x < Real.pi - a) : Real.sin a < Real.sin x := by
  have e := Real.sin_sub_sin x a
  have s1 : 0 < Real.sin ((x - a) / 2) := Real.sin_pos_of_pos_of_lt_pi (by linarith) (by linarith)
  have s2 : 0 < Real.cos ((x + a) / 2) := Real.cos_pos_of_mem_Ioo ⟨by linarith, by linarith⟩
  have := mul_pos (mul_pos (two_pos) s1) s2
  linarith

theorem mul_cos_le_sin (x : ℝ) (h0 : 0 < x) (h1 : x < Real.pi / 2) : x * Real.cos x ≤ Real.sin x := by
  have hc : 0 < Real.cos x := Real.cos_pos_of_mem_Ioo ⟨by linarith, h1⟩
  have := Real.lt_tan h0 h1
  rw [Real.tan_eq_sin_div_cos, lt_div_iff₀ hc] at this
  exact this.le

/-- Lower bound of a gap in the first half, in the form that telescopes. -/
theorem gap_half (Z : LegZeros N (Real.pi / ((N : ℝ) + 1/2)) th) (j : Nat) (h1 : 1 ≤ j) (h2 : 2 * j ≤ N) :
    Real.pi / ((N : ℝ) + 1/2) - (th (j + 1) - th j) ≤
      1 / (2 * ((N : ℝ) + 1/2) ^ 2) * (Real.cos (th j) / Real.sin (th j) - Real.cos (th (j + 1)) / Real.sin (th (j + 1))) := by
  have hlt := Z.gap_lt j h1 (by omega)
  have hlow := Z.start_lt j h1 (by omega)
  have hhalf := Z.lt_half j h1 (by omega)
  have hle : th (j + 1) ≤ Real.pi - th j := by
    rw [← Z.symm j h1 (by omega)]; exact Z.le _ _ (by omega) (by omega) (by omega)
  have hord := Z.lt j (j + 1) h1 (by omega) (by omega)
  have m1 := Z.mem j h1 (by omega)
  have m2 := Z.mem (j + 1) (by omega) (by omega)
  have r1 := Z.root j h1 (by omega)
  have r2 := Z.root (j + 1) (by omega) (by omega)
  have hbt := Z.between j h1 (by omega)
  have hNr : (2 : ℝ) ≤ N := by exact_mod_cast (show 2 ≤ N by omega)
  have hjr : (1 : ℝ) ≤ j := by exact_mod_cast h1
  have hMdef : (N : ℝ) + 1/2 = (N : ℝ) + 1/2 := rfl
  have hosc := leg_osc N (th j) (th (j + 1)) m1.1 m2.2
  have hz1 := (legF_zero_iff N _ m1.1 m1.2).2 r1
  have hz2 := (legF_zero_iff N _ m2.1 m2.2).2 r2
  have hne : ∀ x ∈ Ioo (th j) (th (j + 1)), legF N x ≠ 0 := fun x hx h0 =>
    hbt x hx.1 hx.2 ((legF_zero_iff N x (by linarith [hx.1]) (by linarith [hx.2])).1 h0)
  have hsg := fun w (hw : 0 < w) => sturm_gap hw hord hosc hz1 hz2 hne
  generalize th j = a at *
  generalize th (j + 1) = b at *
  have hpot : ∀ x, legPot N x = ((N : ℝ) + 1/2) ^ 2 + 1 / (4 * Real.sin x ^ 2) := fun x => rfl
  generalize hM : (N : ℝ) + 1/2 = M at *
  have hM2 : (5/2 : ℝ) ≤ M := by linarith
  have hM0 : 0 < M := by linarith
  have hpi := Real.pi_pos
  have hh0 : 0 < Real.pi / M := div_pos hpi hM0
  have ha34 : 3/4 * (Real.pi / M) ≤ a := by
    have := mul_le_mul_of_nonneg_right (show (3/4 : ℝ) ≤ (j : ℝ) - 1/4 by linarith) hh0.le
    linarith
  have hs0 : 0 < Real.sin a := Real.sin_pos_of_pos_of_lt_pi m1.1 m1.2
  have hs0' : 0 < Real.sin b := Real.sin_pos_of_pos_of_lt_pi m2.1 m2.2
  have hMs : 3/2 ≤ M * Real.sin a := by
    have := Real.mul_le_sin m1.1.le hhalf.le
    have h3 : 2 / Real.pi * (3/4 * (Real.pi / M)) ≤ 2 / Real.pi * a := mul_le_mul_of_nonneg_left ha34 (by positivity)
    have h4 : 2 / Real.pi * (3/4 * (Real.pi / M)) = 3/2 / M := by field_simp; norm_num
    rw [h4] at h3
    have := (div_le_iff₀ hM0).1 (h3.trans this)
    linarith
  set y : ℝ := 1 / (4 * (M * Real.sin a) ^ 2) with hy
  have hy0 : 0 < y := by rw [hy]; positivity
  have hy9 : y ≤ 1/9 := by
    rw [hy]
    rw [div_le_div_iff₀ (by positivity) (by norm_num)]
    nlinarith
  have hgap : Real.pi / (M * (1 + y / 2)) ≤ b - a := by
    refine hsg _ (by positivity) fun x hx => ?_
    rw [hpot]
    have hsx := sin_between a x m1.1 hx.1 (by linarith [hx.2])
    have h3 : 1 / (4 * Real.sin x ^ 2) < 1 / (4 * Real.sin a ^ 2) := by
      apply one_div_lt_one_div_of_lt (by positivity)
      have := pow_lt_pow_left₀ hsx hs0.le (n := 2) (by norm_num)
      linarith
    have h4 : 1 / (4 * Real.sin a ^ 2) = M ^ 2 * y := by rw [hy]; field_simp
    rw [h4] at h3
    nlinarith [mul_pos (pow_pos hM0 2) (pow_pos hy0 2)]
  have hgap2 : Real.pi / M * (1 - y / 2) ≤ b - a := by
    refine le_trans ?_ hgap
    rw [← div_div, le_div_iff₀ (by positivity)]
    have : Real.pi / M * (1 - y / 2) * (1 + y / 2) = Real.pi / M - Real.pi / M * (y / 2) ^ 2 := by ring
    rw [this]
    have := mul_nonneg hh0.le (sq_nonneg (y / 2))
    linarith
  -- the sine of the gap
  have hg1 : b - a ≤ Real.pi / 2 := by
    have : Real.pi / M ≤ Real.pi / 2 := div_le_div_of_nonneg_left hpi.le (by norm_num) (by linarith)
    linarith
  have hsin := Real.mul_le_sin (show 0 ≤ b - a by linarith) hg1
  have hg3 : 17/9 / M ≤ Real.sin (b - a) := by
    refine le_trans ?_ hsin
    have h5 : Real.pi / M * (17/18) ≤ b - a := le_trans (mul_le_mul_of_nonneg_left (by linarith) hh0.le) hgap2
    have h6 := mul_le_mul_of_nonneg_left h5 (show 0 ≤ 2 / Real.pi by positivity)
    have h7 : 2 / Real.pi * (Real.pi / M * (17/18)) = 17/9 / M := by field_simp; norm_num
    linarith
  have hratio : Real.sin b ≤ 7/3 * Real.sin a := by
    have e : Real.sin b = Real.sin a * Real.cos (b - a) + Real.cos a * Real.sin (b - a) := by
      rw [← Real.sin_add]; congr 1; ring
    have hc0 : 0 < Real.cos a := Real.cos_pos_of_mem_Ioo ⟨by linarith, hhalf⟩
    have c1 : Real.sin a * Real.cos (b - a) ≤ Real.sin a := by
      have := mul_le_mul_of_nonneg_left (Real.cos_le_one (b - a)) hs0.le
      linarith
    have c2 : Real.cos a * Real.sin (b - a) ≤ Real.cos a * (4/3 * a) := by
      refine mul_le_mul_of_nonneg_left ?_ hc0.le
      have := Real.sin_le (show 0 ≤ b - a by linarith)
      linarith
    have c3 := mul_cos_le_sin a m1.1 hhalf
    rw [e]
    linarith
  have hcot : Real.cos a / Real.sin a - Real.cos b / Real.sin b = Real.sin (b - a) / (Real.sin a * Real.sin b) := by
    rw [Real.sin_sub, div_sub_div _ _ hs0.ne' hs0'.ne']
    congr 1
    ring
  rw [hcot]
  have hfin : Real.pi / M * (y / 2) ≤ 1 / (2 * M ^ 2) * (Real.sin (b - a) / (Real.sin a * Real.sin b)) := by
    have e1 : Real.pi / M * (y / 2) = Real.pi / M * Real.sin b / (8 * M ^ 2 * Real.sin a ^ 2 * Real.sin b) := by
      rw [hy]; field_simp; norm_num
    have e2 : 1 / (2 * M ^ 2) * (Real.sin (b - a) / (Real.sin a * Real.sin b)) = 4 * Real.sin a * Real.sin (b - a) / (8 * M ^ 2 * Real.sin a ^ 2 * Real.sin b) := by
      field_simp; ring
    rw [e1, e2]
    refine div_le_div_of_nonneg_right ?_ (by positivity)
    have i1 : Real.pi / M * Real.sin b ≤ Real.pi / M * (7/3 * Real.sin a) := mul_le_mul_of_nonneg_left hratio hh0.le
    have i2 : 4 * Real.sin a * (17/9 / M) ≤ 4 * Real.sin a * Real.sin (b - a) := mul_le_mul_of_nonneg_left hg3 (by positivity)
    have i3 : Real.pi / M ≤ 3.15 / M := div_le_div_of_nonneg_right Real.pi_lt_d2.le hM0.le
    have i4 : Real.pi / M * (7/3 * Real.sin a) ≤ 3.15 / M * (7/3 * Real.sin a) := mul_le_mul_of_nonneg_right i3 (by positivity)
    have i5 : (3.15 : ℝ) / M * (7/3 * Real.sin a) ≤ 4 * Real.sin a * (17/9 / M) := by
      have : (0 : ℝ) < Real.sin a / M := by positivity
      have e3 : (3.15 : ℝ) / M * (7/3 * Real.sin a) = 7.35 * (Real.sin a / M) := by ring
      have e4 : 4 * Real.sin a * (17/9 / M) = 68/9 * (Real.sin a / M) := by ring
      rw [e3, e4]
      norm_num at *
      linarith
    linarith
  linarith

theorem gap_ge (Z : LegZeros N (Real.pi / ((N : ℝ) + 1/2)) th) (j : Nat) (h1 : 1 ≤ j) (h2 : j + 1 ≤ N) :
    Real.pi / ((N : ℝ) + 1/2) - (th (j + 1) - th j) ≤
      1 / (2 * ((N : ℝ) + 1/2) ^ 2) * (Real.cos (th j) / Real.sin (th j) - Real.cos (th (j + 1)) / Real.sin (th (j + 1))) := by
  rcases Nat.lt_or_ge N (2 * j) with hlt | hge
  · have g := Z.gap_half (N - j) (by omega) (by omega)
    have e1 := Z.symm (j + 1) (by omega) h2
    have e2 := Z.symm j h1 (by omega)
    rw [show N + 1 - (j + 1) = N - j by omega] at e1
    rw [show N + 1 - j = N - j + 1 by omega] at e2
    rw [e1, e2] at g
    simp only [Real.cos_pi_sub, Real.sin_pi_sub] at g
    have : -Real.cos (th (j + 1)) / Real.sin (th (j + 1)) - -Real.cos (th j) / Real.sin (th j) =
      Real.cos (th j) / Real.sin (th j) - Real.cos (th (j + 1)) / Real.sin (th (j + 1)) := by ring
    rw [this] at g
    linarith
  · exact Z.gap_half j h1 hge

theorem sum_ge (Z : LegZeros N (Real.pi / ((N : ℝ) + 1/2)) th) (j k : Nat) (h1 : 1 ≤ j) (h2 : j + k ≤ N) :
    (k : ℝ) * (Real.pi / ((N : ℝ) + 1/2)) - (th (j + k) - th j) ≤
      1 / (2 * ((N : ℝ) + 1/2) ^ 2) * (Real.cos (th j) / Real.sin (th j) - Real.cos (th (j + k)) / Real.sin (th (j + k))) := by
  induction k with
  | zero => simp
  | succ k ih =>
    have a := ih (by omega)
    have b := Z.gap_ge (j + k) (by omega) (by omega)
    rw [show j + (k + 1) = j + k + 1 by ring]
    push_cast
    linarith

/-- How far the zero is from the starting angle. -/
theorem start_close (Z : LegZeros N (Real.pi / ((N : ℝ) + 1/2)) th) (j : Nat) (h1 : 1 ≤ j) (h2 : 2 * j < N + 1) :
    th j - ((j : ℝ) - 1/4) * (Real.pi / ((N : ℝ) + 1/2)) ≤ 1 / (2 * ((N : ℝ) + 1/2) ^ 2) * (Real.cos (th j) / Real.sin (th j)) := by
  obtain ⟨k, hk⟩ : ∃ k, N + 1 - j = j + k := ⟨N + 1 - 2 * j, by omega⟩
  have a := Z.sum_ge j k h1 (by omega)
  rw [← hk, Z.symm j h1 (by omega), Real.cos_pi_sub, Real.sin_pi_sub] at a
  have hm := step_mul N
  have hkr : (k : ℝ) = N + 1 - 2 * j := by
    have : N + 1 = 2 * j + k := by omega
    have : (N : ℝ) + 1 = 2 * j + k := by exact_mod_cast this
    linarith
  rw [hkr] at a
  generalize Real.pi / ((N : ℝ) + 1/2) = h at *
  have e : Real.cos (th j) / Real.sin (th j) - -Real.cos (th j) / Real.sin (th j) = 2 * (Real.cos (th j) / Real.sin (th j)) := by ring
  rw [e] at a
  linarith

end LegZeros

end TicTac
