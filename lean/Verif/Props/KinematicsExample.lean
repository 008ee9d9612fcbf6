import Verif.Props.Kinematics
import Mathlib.Data.Int.Log
import Mathlib.Algebra.Order.Round
import Mathlib.Data.Real.Archimedean
/-! The hypotheses of C120 are met: every finite double has a text, every table a file, every energy an accurate double. -/
noncomputable section
namespace TicTac
open Spec

/-- Every positive number has a rounding to `prec + 1` digits. -/
theorem sciRound_exists (prec : Nat) {v : ℝ} (hv : 0 < v) : ∃ N E, SciRound prec v N E := by
  set E := Int.log 10 v with hE
  have h1 : (10 : ℝ) ^ E ≤ v := by have := Int.zpow_log_le_self (b := 10) (by norm_num) hv; exact_mod_cast this
  have h2 : v < (10 : ℝ) ^ (E + 1) := by have := Int.lt_zpow_succ_log_self (b := 10) (by norm_num) v; exact_mod_cast this
  set u : ℝ := (10 : ℝ) ^ (E - prec) with hu
  have hu0 : 0 < u := by positivity
  have e1 : (10 : ℝ) ^ E = 10 ^ prec * u := by rw [hu, ← zpow_natCast, ← zpow_add₀ (by norm_num)]; congr 1; ring
  have e2 : (10 : ℝ) ^ (E + 1) = 10 ^ (prec + 1) * u := by
    rw [hu, ← zpow_natCast, ← zpow_add₀ (by norm_num)]; congr 1; push_cast; ring
  set n := round (v / u) with hn
  have hr := abs_sub_round (v / u)
  rw [← hn] at hr
  obtain ⟨a, b⟩ := abs_le.1 hr
  have hvu : v = v / u * u := by field_simp
  have l1 : (10 : ℝ) ^ prec ≤ v / u := by rw [le_div_iff₀ hu0, ← e1]; exact h1
  have l2 : v / u < (10 : ℝ) ^ (prec + 1) := by rw [div_lt_iff₀ hu0, ← e2]; exact h2
  have n1 : (10 : Int) ^ prec ≤ n := by
    have : ((10 : Int) ^ prec : ℝ) - 1 < (n : ℝ) := by push_cast; linarith
    have : (((10 : Int) ^ prec - 1 : Int) : ℝ) < n := by push_cast at this ⊢; exact this
    have := Int.cast_lt.1 this
    omega
  have n2 : n ≤ (10 : Int) ^ (prec + 1) := by
    have : (n : ℝ) < ((10 : Int) ^ (prec + 1) + 1 : Int) := by push_cast; linarith
    have := Int.cast_lt.1 this
    omega
  obtain ⟨N, hN⟩ := Int.eq_ofNat_of_zero_le (a := n) (le_trans (by positivity) n1)
  rw [hN] at n1 n2 a b
  have n1' : 10 ^ prec ≤ N := by exact_mod_cast n1
  have n2' : N ≤ 10 ^ (prec + 1) := by exact_mod_cast n2
  have herr : |v - N * u| ≤ u / 2 := by
    have : v - N * u = (v / u - N) * u := by rw [sub_mul, ← hvu]
    rw [this, abs_mul, abs_of_pos hu0]
    have : |v / u - N| ≤ 1 / 2 := by rw [abs_le]; push_cast at a b; exact ⟨a, b⟩
    nlinarith
  rcases Nat.lt_or_eq_of_le n2' with hlt | heq
  · exact ⟨N, E, n1', hlt, herr⟩
  · refine ⟨10 ^ prec, E + 1, le_rfl, Nat.pow_lt_pow_right (by norm_num) (by omega), ?_⟩
    have e3 : (10 : ℝ) ^ (E + 1 - (prec : Int)) = 10 * u := by
      rw [hu, show E + 1 - (prec : Int) = 1 + (E - prec) by ring, zpow_add₀ (by norm_num), zpow_one]
    rw [e3]
    have : (((10 : Nat) ^ prec : Nat) : ℝ) * (10 * u) = N * u := by rw [heq]; push_cast; ring
    rw [this]
    linarith

theorem prints_exists (prec : Nat) (x : Dbl) : ∃ t, Prints prec x t := by
  cases x with
  | inf n => exact ⟨_, rfl⟩
  | nan n => exact ⟨_, rfl⟩
  | fin n m e =>
    by_cases hm : m = 0
    · exact ⟨sciText prec n 0 0, by simp [Prints, hm]⟩
    · have h0 : (0 : ℝ) < m * (2 : ℝ) ^ e := by
        have : (0 : ℝ) < m := by exact_mod_cast Nat.pos_of_ne_zero hm
        positivity
      obtain ⟨N, E, h⟩ := sciRound_exists prec h0
      refine ⟨sciText prec n N E, ?_⟩
      show (if m = 0 then _ else _)
      rw [if_neg hm]
      exact ⟨N, E, h, rfl⟩

theorem rows_exist (l : List Nat) (x : Nat → Dbl × Dbl × Dbl) : ∃ ls, List.Forall₂ (fun i s => KinRow i (x i) s) l ls := by
  induction l with
  | nil => exact ⟨[], .nil⟩
  | cons a l ih =>
    obtain ⟨ls, h⟩ := ih
    obtain ⟨t1, h1⟩ := prints_exists 8 (x a).1.unsigned
    obtain ⟨t2, h2⟩ := prints_exists 8 (x a).2.1.unsigned
    obtain ⟨t3, h3⟩ := prints_exists 8 (x a).2.2.unsigned
    exact ⟨_ :: ls, .cons ⟨_, _, _, ⟨_, ⟨t1, h1, rfl⟩, rfl⟩, ⟨_, ⟨t2, h2, rfl⟩, rfl⟩, ⟨_, ⟨t3, h3, rfl⟩, rfl⟩, rfl⟩ h⟩

/-- Every table has a file. -/
theorem kinFile_exists (N : Nat) (edge mid : Nat → Dbl × Dbl × Dbl) : ∃ s, KinFile N edge mid s := by
  obtain ⟨l1, h1⟩ := rows_exist (List.range (N + 1)) edge
  obtain ⟨l2, h2⟩ := rows_exist (List.range N) mid
  exact ⟨_, l1, l2, h1, h2, rfl⟩

/-- A double near a number of ordinary size. -/
theorem dbl_near {T : ℝ} (h1 : 1 ≤ T) (h2 : T < 2 ^ 20) : ∃ m e, (Dbl.fin false m e).OK ∧ |dblValue false m e - T| ≤ 1e-9 * T := by
  have hT : 0 < T := by linarith
  set L := Int.log 2 T with hL
  have l1 : (2 : ℝ) ^ L ≤ T := by have := Int.zpow_log_le_self (b := 2) (by norm_num) hT; exact_mod_cast this
  have l2 : T < (2 : ℝ) ^ (L + 1) := by have := Int.lt_zpow_succ_log_self (b := 2) (by norm_num) T; exact_mod_cast this
  have b1 : -1 < L := by
    have : (2 : ℝ) ^ (0 : Int) < 2 ^ (L + 1) := by rw [zpow_zero]; linarith
    have := (zpow_lt_zpow_iff_right₀ (by norm_num : (1 : ℝ) < 2)).1 this
    omega
  have b2 : L < 20 := by
    have : (2 : ℝ) ^ L < 2 ^ (20 : Int) := by
      have e : (2 : ℝ) ^ (20 : Int) = 2 ^ 20 := by norm_num
      rw [e]; linarith
    exact (zpow_lt_zpow_iff_right₀ (by norm_num : (1 : ℝ) < 2)).1 this
  set u : ℝ := (2 : ℝ) ^ (L - 52) with hu
  have hu0 : 0 < u := by positivity
  have e1 : (2 : ℝ) ^ L = 2 ^ 52 * u := by rw [hu, ← zpow_natCast, ← zpow_add₀ (by norm_num)]; congr 1; push_cast; ring
  have e2 : (2 : ℝ) ^ (L + 1) = 2 ^ 53 * u := by rw [hu, ← zpow_natCast, ← zpow_add₀ (by norm_num)]; congr 1; push_cast; ring
  have f1 := Nat.floor_le (a := T / u) (by positivity)
  have f2 := Nat.lt_floor_add_one (T / u)
  have m1 : 2 ^ 52 ≤ ⌊T / u⌋₊ := by
    apply Nat.le_floor
    rw [le_div_iff₀ hu0]
    push_cast
    norm_num at e1 ⊢
    linarith
  have m2 : ⌊T / u⌋₊ < 2 ^ 53 := by
    rw [Nat.floor_lt (by positivity), div_lt_iff₀ hu0]
    push_cast
    norm_num at e2 ⊢
    linarith
  refine ⟨⌊T / u⌋₊, L - 52, ⟨m2, by omega, by omega, Or.inl m1⟩, ?_⟩
  unfold dblValue
  simp only [Bool.false_eq_true, if_false, one_mul]
  rw [← hu]
  have hTu : T = T / u * u := by field_simp
  generalize hF : ((⌊T / u⌋₊ : Nat) : ℝ) = F at *
  have g1 : F * u ≤ T := by rw [hTu]; exact mul_le_mul_of_nonneg_right f1 hu0.le
  have g2 : T < (F + 1) * u := by rw [hTu]; exact mul_lt_mul_of_pos_right f2 hu0
  have g3 : 2 ^ 52 * u ≤ T := by rw [← e1]; exact l1
  rw [abs_le]
  norm_num at g3 ⊢
  constructor <;> nlinarith

theorem lab_bounds : comMomentumToLabEnergy 71 (-2.2) ≤ 10 ∧ 20 ≤ comMomentumToLabEnergy 158 (-2.2) ∧ comMomentumToLabEnergy 159 (-2.2) ≤ 40 ∧
    60 ≤ comMomentumToLabEnergy 254 (-2.2) := by
  unfold comMomentumToLabEnergy deuteronMass Mn Mp
  dsimp only
  refine ⟨?_, ?_, ?_, ?_⟩
  · rw [show (0.5 : ℝ) = 1 / 2 by norm_num, div_mul_eq_mul_div, div_le_iff₀ (by norm_num), one_mul, neg_add_le_iff_le_add, Real.sqrt_le_iff]
    norm_num
  · rw [show (0.5 : ℝ) = 1 / 2 by norm_num, div_mul_eq_mul_div, le_div_iff₀ (by norm_num), one_mul, le_neg_add_iff_add_le]
    apply Real.le_sqrt_of_sq_le
    norm_num
  · rw [show (0.5 : ℝ) = 1 / 2 by norm_num, div_mul_eq_mul_div, div_le_iff₀ (by norm_num), one_mul, neg_add_le_iff_le_add, Real.sqrt_le_iff]
    norm_num
  · rw [show (0.5 : ℝ) = 1 / 2 by norm_num, div_mul_eq_mul_div, le_div_iff₀ (by norm_num), one_mul, le_neg_add_iff_add_le]
    apply Real.le_sqrt_of_sq_le
    norm_num

/-- The grid 0, 100, 200, 300 MeV at the deuteron: its table is a file, and the number read in the last column of the middle row, requested as an energy,
is computed. -/
theorem C120_example : ∃ (mid : Nat → Dbl × Dbl × Dbl) (s : Str) (w : Str) (T : ℝ) (o : OnShell), KinFile 3 mid mid s ∧
    ((dataRows s)[3 + 1 + 1]?.bind (·[3]?)) = some w ∧ readReal w = some T ∧ findOnShell 3 (fun i => 100 * (i : ℝ)) (-2.2) [T] = .ok o ∧
    (midRow (fun i => 100 * (i : ℝ)) (-2.2) 1).2.2 ∈ o.Tlab := by
  obtain ⟨hg, hw⟩ := kin_grid
  set q : Nat → ℝ := fun i => 100 * (i : ℝ) with hq
  have hEb : -(Mn + Mp) < (-2.2 : ℝ) := by norm_num [Mn, Mp]
  have hm := (mu1_pos hEb).1
  obtain ⟨r1, r2⟩ := mass_ratio (-2.2) (by norm_num) (by norm_num)
  have hnn : ∀ i, 0 ≤ comEnergyToComQ (midE q (-2.2) i) := fun i => Real.sqrt_nonneg _
  have s0 := qm_sq hEb q 0
  have s1 := qm_sq hEb q 1
  have s2 := qm_sq hEb q 2
  have v0 : q 0 = 0 := by simp [hq]
  have v1 : q 1 = 100 := by simp [hq]
  have v2 : q 2 = 200 := by simp [hq]; norm_num
  have v3 : q 3 = 300 := by simp [hq]; norm_num
  simp only [Nat.zero_add, Nat.reduceAdd, v0, v1, v2, v3] at s0 s1 s2
  have q0 : comEnergyToComQ (midE q (-2.2) 0) < 71 := by
    apply lt_of_pow_lt_pow_left₀ 2 (by norm_num); rw [s0]; norm_num at r1 r2 ⊢; linarith
  have q1 : 158 < comEnergyToComQ (midE q (-2.2) 1) := by
    apply lt_of_pow_lt_pow_left₀ 2 (hnn 1); rw [s1]; norm_num at r1 r2 ⊢; linarith
  have q1' : comEnergyToComQ (midE q (-2.2) 1) < 159 := by
    apply lt_of_pow_lt_pow_left₀ 2 (by norm_num); rw [s1]; norm_num at r1 r2 ⊢; linarith
  have q2 : 254 < comEnergyToComQ (midE q (-2.2) 2) := by
    apply lt_of_pow_lt_pow_left₀ 2 (hnn 2); rw [s2]; norm_num at r1 r2 ⊢; linarith
  obtain ⟨b0, b1, b1', b2⟩ := lab_bounds
  have t0 : (midRow q (-2.2) 0).2.2 < 10 := (C22_com_to_lab_strict _ _ _ hm (hnn 0) q0).trans_le b0
  have t1 : 20 < (midRow q (-2.2) 1).2.2 := b1.trans_lt (C22_com_to_lab_strict _ _ _ hm (by norm_num) q1)
  have t1' : (midRow q (-2.2) 1).2.2 < 40 := (C22_com_to_lab_strict _ _ _ hm (hnn 1) q1').trans_le b1'
  have t2 : 60 < (midRow q (-2.2) 2).2.2 := b2.trans_lt (C22_com_to_lab_strict _ _ _ hm (by norm_num) q2)
  obtain ⟨m, e, -, hacc⟩ := dbl_near (T := (midRow q (-2.2) 1).2.2) (by linarith) (by norm_num; linarith)
  obtain ⟨s, hs⟩ := kinFile_exists 3 (fun _ => (Dbl.fin false m e, .fin false m e, .fin false m e)) (fun _ => (Dbl.fin false m e, .fin false m e, .fin false m e))
  obtain ⟨w, T, hw1, hT, hreq⟩ := C120_copy 3 q hg (-2.2) hEb hs 1 le_rfl (by norm_num) rfl hacc
    (by show (midRow q (-2.2) 0).2.2 < _; norm_num; norm_num at t0 t1; linarith) (by show _ < (midRow q (-2.2) 2).2.2; norm_num; norm_num at t1' t2; linarith)
  obtain ⟨o, ho, -⟩ := C39_indices 3 q hg hw (-2.2) (by norm_num) (by norm_num) [T]
  exact ⟨_, s, w, T, o, hs, hw1, hT, ho, (hreq o ho).1⟩

end TicTac
end
