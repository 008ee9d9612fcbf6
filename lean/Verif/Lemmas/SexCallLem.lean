import Verif.Lemmas.SexLoop
import Verif.Spec.NijmegenSex
/-! One call of `SEXN`. -/
noncomputable section
namespace TicTac
open Polynomial Spec Set MeasureTheory

/-- The start of the backward recursion is high enough. -/
def StartOk (y : ℝ) (K : Nat) (ρ : ℝ) : Prop := 7 < sexCheck y K → K < sexStart y K ∧ ∀ i, 1 ≤ i → i ≤ K → damp y i (sexStart y K - 1) ≤ ρ

theorem sexStart_odd (y : ℝ) (K : Nat) : sexStart y K % 2 = 1 := by
  unfold sexStart
  dsimp only
  generalize (if y < 1e-4 then K + 4 else _ : Nat) = m
  by_cases h : m % 2 = 0
  · rw [if_pos h]; omega
  · rw [if_neg h]; omega

/-- How many moments a call with wave number `j` fills in. -/
def tabLen (x : ℝ) (j : Nat) : Nat := if 5 < x then j + 2 + 20 else j + 2

theorem reg_facts {c : SexCall} (hc : c.Regular) :
    ¬(c.y - c.y * c.x - c.a ^ 2 < -160) ∧ nijFdexp (c.a * c.a) = Real.exp (c.a * c.a) ∧
    (if -160 < c.y - c.y * c.x then nijFdexp (c.y - c.y * c.x) * Real.exp (c.a * c.a) / 2 else 0) = Real.exp (c.y - (c.y * c.x - c.a * c.a)) / 2 ∧
    (if -160 < -(c.y + c.y * c.x) then nijFdexp (-(c.y + c.y * c.x)) * Real.exp (c.a * c.a) / 2 else 0) = Real.exp (-c.y - (c.y * c.x - c.a * c.a)) / 2 ∧
    Real.exp (c.a * c.a) * Real.sinh c.y * nijFdexp (-(c.y * c.x)) = Real.exp (c.y - (c.y * c.x - c.a * c.a)) / 2 - Real.exp (-c.y - (c.y * c.x - c.a * c.a)) / 2 := by
  have hy : 0 < c.y := by linarith [hc.y1, show (0 : ℝ) < 1e-3 by norm_num]
  have h1 := hc.yx
  have h2 := hc.a1
  have h3 := mul_self_nonneg c.a
  have h4 := mul_nonneg hy.le (by linarith [hc.x1] : 0 ≤ c.x - 1)
  have fd : ∀ t, -100 < t → nijFdexp t = Real.exp t := fun t ht => if_neg (by linarith)
  refine ⟨by nlinarith, fd _ (by linarith), ?_, ?_, ?_⟩
  · rw [if_pos (by nlinarith), fd _ (by nlinarith), ← Real.exp_add]; congr 2; ring
  · rw [if_pos (by nlinarith), fd _ (by nlinarith), ← Real.exp_add]; congr 2; ring
  · rw [fd _ (by nlinarith), Real.sinh_eq, show c.y - (c.y * c.x - c.a * c.a) = c.a * c.a + c.y + -(c.y * c.x) by ring, show -c.y - (c.y * c.x - c.a * c.a) = c.a * c.a + -c.y + -(c.y * c.x) by ring,
      Real.exp_add, Real.exp_add, Real.exp_add, Real.exp_add]
    ring

/-- The tables after they have been filled. -/
theorem sexFill_spec {c : SexCall} (hc : c.Regular) {ρ : ℝ} (hρ : 0 ≤ ρ) (hs : StartOk c.y (tabLen c.x c.j) ρ) (m : SexMem) :
    ∃ m', sexFill m c.x c.y c.a (Real.exp (c.y - (c.y * c.x - c.a * c.a)) / 2) (Real.exp (-c.y - (c.y * c.x - c.a * c.a)) / 2) (Real.exp (c.a * c.a)) c.j = some m' ∧
      m'.xyhh = c.y * c.x - c.a * c.a ∧ m'.yh = c.y ∧
      ∀ i, 1 ≤ i → i ≤ tabLen c.x c.j → |m'.tn i - tMom c.y (c.y * c.x - c.a * c.a) (i - 1)| ≤ ρ * Real.exp (c.y - (c.y * c.x - c.a * c.a)) := by
  have hy : 0 < c.y := by linarith [hc.y1, show (0 : ℝ) < 1e-3 by norm_num]
  have hlen : tabLen c.x c.j ≤ 30 := by have := hc.j1; unfold tabLen; split_ifs <;> omega
  unfold sexFill
  dsimp only
  rw [(reg_facts hc).2.2.2.2]
  change ∃ m', (if sexCheck c.y (tabLen c.x c.j) ≤ 7 then _ else _) = some m' ∧ _
  generalize c.y * c.x - c.a * c.a = κ
  by_cases hch : sexCheck c.y (tabLen c.x c.j) ≤ 7
  · rw [if_pos hch]
    change ∃ m', (if 30 < tabLen c.x c.j then _ else _) = some m' ∧ _
    rw [if_neg (by omega)]
    refine ⟨_, rfl, rfl, rfl, ?_⟩
    intro i h1 h2
    change |(if 1 ≤ i ∧ i ≤ tabLen c.x c.j then _ else _) - _| ≤ _
    rw [if_pos ⟨h1, h2⟩, tnForward_eq hy]
    simp only [sub_self, abs_zero]
    positivity
  · rw [if_neg hch]
    obtain ⟨s1, s2⟩ := hs (by linarith)
    change ∃ m', (if 30 < Nat.min (tabLen c.x c.j) (sexStart c.y (tabLen c.x c.j) - 1) then _ else _) = some m' ∧ _
    have hmin : ¬ 30 < Nat.min (tabLen c.x c.j) (sexStart c.y (tabLen c.x c.j) - 1) := by
      have : Nat.min (tabLen c.x c.j) (sexStart c.y (tabLen c.x c.j) - 1) ≤ tabLen c.x c.j := Nat.min_le_left _ _
      omega
    rw [if_neg hmin]
    refine ⟨_, rfl, rfl, rfl, ?_⟩
    intro i h1 h2
    change |tnBack c.y (tabLen c.x c.j) (sexStart c.y (tabLen c.x c.j) - 1) 0 _ _ m.tn i - _| ≤ _
    have hodd := sexStart_odd c.y (tabLen c.x c.j)
    have h := (tnBack_spec hy κ (tabLen c.x c.j) (sexStart c.y (tabLen c.x c.j) - 1) 0 m.tn i).1 ⟨h1, h2, by omega⟩
    have hev : (-1 : ℝ) ^ (sexStart c.y (tabLen c.x c.j) - 1) = 1 := Even.neg_one_pow (Nat.even_iff.2 (by omega))
    rw [hev, one_mul] at h
    refine h.trans ?_
    rw [zero_sub, abs_neg]
    have hT : |tMom c.y κ (sexStart c.y (tabLen c.x c.j) - 1)| ≤ Real.exp (c.y - κ) :=
      ((tMom_abs _ _ _).trans (aMom_le hy κ _)).trans (div_le_self (Real.exp_pos _).le (by push_cast; linarith [show (0 : ℝ) ≤ ((sexStart c.y (tabLen c.x c.j) - 1 : Nat) : ℝ) by positivity]))
    rw [mul_comm ρ]
    have hd : 0 ≤ damp c.y i (sexStart c.y (tabLen c.x c.j) - 1) := Finset.prod_nonneg fun n _ => by positivity
    exact mul_le_mul hT (s2 i h1 h2) hd (Real.exp_pos _).le

/-- Tables that belong to their keys, for wave number `j₀`. -/
structure TabOk (m : SexMem) (j₀ : Nat) (ρ : ℝ) : Prop where
  tab : ∀ i, 1 ≤ i → i ≤ tabLen m.xh j₀ → |m.tn i - tMom m.yh m.xyhh (i - 1)| ≤ ρ * Real.exp (m.yh - m.xyhh)

theorem tMom_shift (y κ κ' : ℝ) (n : Nat) : tMom y κ' n = Real.exp (κ - κ') * tMom y κ n := by
  unfold tMom
  rw [show -κ' = (κ - κ') + -κ by ring, Real.exp_add]
  ring

/-- Tables kept from an earlier call. -/
theorem kept_tables {c : SexCall} (hc : c.Regular) {m : SexMem} {ρ : ℝ} (hρ : 0 ≤ ρ) {i : Nat}
    (ht : |m.tn i - tMom m.yh m.xyhh (i - 1)| ≤ ρ * Real.exp (m.yh - m.xyhh)) (h1 : |c.y * c.x - c.a * c.a - m.xyhh| < 1e-10 * (c.y * c.x - c.a * c.a)) (h2 : c.y = m.yh) :
    |m.tn i - tMom c.y (c.y * c.x - c.a * c.a) (i - 1)| ≤ (1.1 * ρ + 2e-8) * Real.exp (c.y - (c.y * c.x - c.a * c.a)) := by
  have hy : 0 < c.y := by linarith [hc.y1, show (0 : ℝ) < 1e-3 by norm_num]
  have hκ : c.y * c.x - c.a * c.a < 100 := by nlinarith [hc.yx, mul_self_nonneg c.a]
  rw [← h2] at ht
  set κ := c.y * c.x - c.a * c.a
  have hd : |κ - m.xyhh| ≤ 1e-8 := by linarith
  rw [tMom_shift c.y κ m.xyhh, show c.y - m.xyhh = (κ - m.xyhh) + (c.y - κ) by ring, Real.exp_add] at ht
  have e1 : |Real.exp (κ - m.xyhh) - 1| ≤ 2e-8 := by
    have := Real.abs_exp_sub_one_le (x := κ - m.xyhh) (by linarith)
    linarith
  have hT : |tMom c.y κ (i - 1)| ≤ Real.exp (c.y - κ) :=
    ((tMom_abs _ _ _).trans (aMom_le hy κ _)).trans (div_le_self (Real.exp_pos _).le (by push_cast; linarith [show (0 : ℝ) ≤ ((i - 1 : Nat) : ℝ) by positivity]))
  have B0 := Real.exp_pos (c.y - κ)
  set B := Real.exp (c.y - κ)
  set E := Real.exp (κ - m.xyhh)
  have e2 : E ≤ 1.1 := by have := (abs_le.1 e1).2; linarith
  have t2 : |E * tMom c.y κ (i - 1) - tMom c.y κ (i - 1)| ≤ 2e-8 * B := by
    rw [show E * tMom c.y κ (i - 1) - tMom c.y κ (i - 1) = (E - 1) * tMom c.y κ (i - 1) by ring, abs_mul]
    exact mul_le_mul e1 hT (abs_nonneg _) (by norm_num)
  have t3 : ρ * (E * B) ≤ 1.1 * ρ * B := by
    have : E * B ≤ 1.1 * B := mul_le_mul_of_nonneg_right e2 B0.le
    nlinarith
  have tri := abs_sub_le (m.tn i) (E * tMom c.y κ (i - 1)) (tMom c.y κ (i - 1))
  linarith

/-- What a call returns, given tables of the needed accuracy. -/
theorem call_values {c : SexCall} (hc : c.Regular) {m : SexMem} {Δ : ℝ} {ce1 : ℝ → ℝ} (hce : ∀ t, 0 < t → |ce1 t - Real.exp t * ei1 t| ≤ 1e-12)
    {L : Nat} (hL : (if 5 < c.x then c.j + 20 else c.j) ≤ L) (hL1 : 1 ≤ L) (ht : ∀ i, 1 ≤ i → i ≤ L → |m.tn i - tMom c.y (c.y * c.x - c.a * c.a) (i - 1)| ≤ Δ) :
    (∀ n < L, |legSum m.tn n - sexR c n| ≤ 3 ^ n * Δ) ∧
    (c.kom = 1 → 5 < c.x → ∃ um, (if m.tn (c.j + 1) / c.x = 0 then some (m.tn (c.j + 1) / c.x) else unSeries c.x m.tn (c.j + 1) 20 1 (m.tn (c.j + 1) / c.x) (1 / c.x) 0) = some um ∧
      ∀ n ≤ c.j, |legSum (fun i => unBack c.x um m.tn (c.j + 1) (c.j + 1 - i)) n - sexL c n| ≤ 3 ^ n * (7e-12 * sexSize c + 51 * Δ)) ∧
    (c.kom = 1 → ¬ 5 < c.x → ∀ n ≤ c.j, |legSum (fun i => unForward c.x (Real.exp (c.y - (c.y * c.x - c.a * c.a)) / 2 * ce1 (-(c.y - c.y * c.x)) -
        Real.exp (-c.y - (c.y * c.x - c.a * c.a)) / 2 * ce1 (c.y + c.y * c.x)) m.tn (i - 1)) n - sexL c n| ≤ 15 ^ n * (1e-12 * sexSize c + Δ / 4)) := by
  have hy : 0 < c.y := by linarith [hc.y1, show (0 : ℝ) < 1e-3 by norm_num]
  have hsz : sexSize c = Real.exp (c.y - (c.y * c.x - c.a * c.a)) := by unfold sexSize; congr 1; ring
  have ht1 := ht 1 le_rfl hL1
  have Δ0 : 0 ≤ Δ := (abs_nonneg _).trans ht1
  refine ⟨?_, ?_, ?_⟩
  · intro n hn
    rw [sexR, ← legSum_tMom]
    exact legSum_err fun k hk => ht (k + 1) (by omega) (by omega)
  · intro hk hx
    rw [if_pos hx] at hL
    have hB := Real.exp_pos (c.y - (c.y * c.x - c.a * c.a))
    have key : ∃ um, (if m.tn (c.j + 1) / c.x = 0 then some (m.tn (c.j + 1) / c.x) else unSeries c.x m.tn (c.j + 1) 20 1 (m.tn (c.j + 1) / c.x) (1 / c.x) 0) = some um ∧
        |um - uMom c.x c.y (c.y * c.x - c.a * c.a) (c.j + 1 - 1)| ≤ 7e-12 * sexSize c + 51 * Δ := by
      have x0 : 0 < c.x := by linarith
      by_cases h0 : m.tn (c.j + 1) / c.x = 0
      · rw [if_pos h0]
        refine ⟨_, rfl, ?_⟩
        rw [h0, zero_sub, abs_neg]
        have htn : m.tn (c.j + 1) = 0 := by rcases div_eq_zero_iff.1 h0 with h | h
                                            · exact h
                                            · exact absurd h x0.ne'
        have h1 := ht (c.j + 1) (by omega) (by omega)
        rw [htn, zero_sub, abs_neg] at h1
        have h2 := uMom_rest hx hc.y1 (c.y * c.x - c.a * c.a) (c.j + 1 - 1)
        have h3 : 252 * tMom c.y (c.y * c.x - c.a * c.a) (c.j + 1 - 1) / c.x ≤ 51 * Δ := by
          rw [div_le_iff₀ x0]
          have := le_abs_self (tMom c.y (c.y * c.x - c.a * c.a) (c.j + 1 - 1))
          nlinarith
        rw [hsz]
        linarith
      · rw [if_neg h0]
        obtain ⟨mm, m1, m2, m3, m4⟩ := unSeries_run x0 m.tn (c.j + 1) (by have := hc.j1; omega) 20 1 (m.tn (c.j + 1) / c.x) (1 / c.x) 0 (by norm_num) le_rfl (by omega) (by simp [serSum]) (by simp)
        refine ⟨_, m4, ?_⟩
        rw [hsz]
        exact unSeries_err hx hc.y1 _ (by omega) (fun i h1 h2 => ht i h1 (by omega)) m1 m2 m3
    obtain ⟨um, u1, u2⟩ := key
    refine ⟨um, u1, ?_⟩
    intro n hn
    rw [sexL, ← legSum_uMom (by linarith)]
    refine legSum_err fun k hk => ?_
    have h := unBack_spec (x := c.x) (max := c.j + 1) hx (c.y * c.x - c.a * c.a) (by rw [hsz]; linarith) u2 (fun i h1 h2 => ht i h1 (by omega)) (c.j + 1 - (k + 1)) (by omega)
    rw [show c.j + 1 - 1 - (c.j + 1 - (k + 1)) = k by omega] at h
    simpa using h
  · intro hk hx n hn
    have hx1 := hc.x2 hk
    rw [if_neg hx] at hL
    rw [sexL, ← legSum_uMom hx1]
    have hu : |Real.exp (c.y - (c.y * c.x - c.a * c.a)) / 2 * ce1 (-(c.y - c.y * c.x)) - Real.exp (-c.y - (c.y * c.x - c.a * c.a)) / 2 * ce1 (c.y + c.y * c.x) - uMom c.x c.y (c.y * c.x - c.a * c.a) 0| ≤ 1e-12 * sexSize c := by
      have p1 : 0 < -(c.y - c.y * c.x) := by nlinarith
      have p2 : 0 < c.y + c.y * c.x := by nlinarith
      have a1 := hce _ p1
      have a2 := hce _ p2
      rw [uMom_zero hx1 hy, hsz]
      have q1 : Real.exp (c.y - (c.y * c.x - c.a * c.a)) * Real.exp (-(c.y - c.y * c.x)) = Real.exp (c.y * c.x - (c.y * c.x - c.a * c.a)) := by rw [← Real.exp_add]; congr 1; ring
      have q2 : Real.exp (-c.y - (c.y * c.x - c.a * c.a)) * Real.exp (c.y + c.y * c.x) = Real.exp (c.y * c.x - (c.y * c.x - c.a * c.a)) := by rw [← Real.exp_add]; congr 1; ring
      have q3 : Real.exp (-c.y - (c.y * c.x - c.a * c.a)) ≤ Real.exp (c.y - (c.y * c.x - c.a * c.a)) := Real.exp_le_exp.2 (by linarith)
      have q4 := Real.exp_pos (-c.y - (c.y * c.x - c.a * c.a))
      rw [show c.y * c.x - c.y = -(c.y - c.y * c.x) by ring, show c.y * c.x + c.y = c.y + c.y * c.x by ring]
      have d : Real.exp (c.y - (c.y * c.x - c.a * c.a)) / 2 * ce1 (-(c.y - c.y * c.x)) - Real.exp (-c.y - (c.y * c.x - c.a * c.a)) / 2 * ce1 (c.y + c.y * c.x) -
          1 / 2 * Real.exp (c.y * c.x - (c.y * c.x - c.a * c.a)) * (ei1 (-(c.y - c.y * c.x)) - ei1 (c.y + c.y * c.x)) =
          Real.exp (c.y - (c.y * c.x - c.a * c.a)) / 2 * (ce1 (-(c.y - c.y * c.x)) - Real.exp (-(c.y - c.y * c.x)) * ei1 (-(c.y - c.y * c.x))) -
          Real.exp (-c.y - (c.y * c.x - c.a * c.a)) / 2 * (ce1 (c.y + c.y * c.x) - Real.exp (c.y + c.y * c.x) * ei1 (c.y + c.y * c.x)) := by
        linear_combination (1 / 2 * ei1 (-(c.y - c.y * c.x))) * q1 - (1 / 2 * ei1 (c.y + c.y * c.x)) * q2
      rw [d]
      refine (abs_sub _ _).trans ?_
      rw [abs_mul, abs_mul, abs_of_pos (by positivity : 0 < Real.exp (c.y - (c.y * c.x - c.a * c.a)) / 2), abs_of_pos (by positivity : 0 < Real.exp (-c.y - (c.y * c.x - c.a * c.a)) / 2)]
      have b1 := mul_le_mul_of_nonneg_left a1 (by positivity : 0 ≤ Real.exp (c.y - (c.y * c.x - c.a * c.a)) / 2)
      have b2 := mul_le_mul_of_nonneg_left a2 (by positivity : 0 ≤ Real.exp (-c.y - (c.y * c.x - c.a * c.a)) / 2)
      linarith
    have hz : 0 < sexSize c := Real.exp_pos _
    have he : ∀ k ≤ n, |unForward c.x (Real.exp (c.y - (c.y * c.x - c.a * c.a)) / 2 * ce1 (-(c.y - c.y * c.x)) - Real.exp (-c.y - (c.y * c.x - c.a * c.a)) / 2 * ce1 (c.y + c.y * c.x)) m.tn k -
        uMom c.x c.y (c.y * c.x - c.a * c.a) k| ≤ 5 ^ n * (1e-12 * sexSize c + Δ / 4) := by
      intro k hkn
      have h := unForward_spec (K := c.j) hx1 (c.y * c.x - c.a * c.a) (not_lt.1 hx) hu (fun i h1 h2 => ht i h1 (by omega)) k (by omega)
      have h5 : (5 : ℝ) ^ k ≤ 5 ^ n := pow_le_pow_right₀ (by norm_num) hkn
      have := mul_le_mul_of_nonneg_right h5 (by positivity : 0 ≤ 1e-12 * sexSize c + Δ / 4)
      linarith
    have h := legSum_err (f := fun i => unForward c.x (Real.exp (c.y - (c.y * c.x - c.a * c.a)) / 2 * ce1 (-(c.y - c.y * c.x)) - Real.exp (-c.y - (c.y * c.x - c.a * c.a)) / 2 * ce1 (c.y + c.y * c.x)) m.tn (i - 1))
      (g := fun i => uMom c.x c.y (c.y * c.x - c.a * c.a) (i - 1)) (n := n) (e := 5 ^ n * (1e-12 * sexSize c + Δ / 4)) (fun k hk => by simpa using he k hk)
    refine h.trans (le_of_eq ?_)
    rw [← mul_assoc, ← mul_pow]
    norm_num

end TicTac
end
