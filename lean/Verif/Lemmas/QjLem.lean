import Verif.Lemmas.LegendreQ
import Verif.Model.NijmegenSml
/-! `QJ99` returns the Legendre functions of the second kind. -/
noncomputable section
namespace TicTac
open Polynomial Spec Set MeasureTheory

/-- Partial sums of the hypergeometric series. -/
def hypPart (l : Nat) (z : ℝ) (N : Nat) : ℝ := ∑ k ∈ Finset.range N, hypCoef l k * z ^ k

theorem hypPart_ge_one {l : Nat} {z : ℝ} (hz : 0 ≤ z) {N : Nat} (hN : 1 ≤ N) : 1 ≤ hypPart l z N := by
  obtain ⟨n, rfl⟩ := Nat.exists_eq_add_of_le' hN
  unfold hypPart
  rw [Finset.sum_range_succ']
  have : 0 ≤ ∑ k ∈ Finset.range n, hypCoef l (k + 1) * z ^ (k + 1) := Finset.sum_nonneg fun k _ => mul_nonneg (hypCoef_pos _ _).le (by positivity)
  have h0 : hypCoef l 0 * z ^ 0 = 1 := by simp [hypCoef]
  rw [h0]
  linarith

theorem hypLoop_spec (l : Nat) {z : ℝ} (hz : 0 ≤ z) (left : Nat) : ∀ n : Nat, 1 ≤ n →
    ∃ N, n + 1 ≤ N ∧ hypLoop z left (1 / 2 + ((n : ℝ) - 1)) (l + 1 + ((n : ℝ) - 1)) (l + 3 / 2 + ((n : ℝ) - 1)) n (hypCoef l n * z ^ n) (hypPart l z (n + 1)) = hypPart l z N ∧
      (hypCoef l N * z ^ N ≤ 1e-7 * hypPart l z N ∨ n + left + 1 ≤ N) := by
  induction left with
  | zero => intro n hn; exact ⟨n + 1, le_rfl, rfl, Or.inr (by omega)⟩
  | succ left ih =>
    intro n hn
    rw [hypLoop]
    have ht : hypCoef l n * z ^ n * (1 / 2 + ((n : ℝ) - 1) + 1) * ((l : ℝ) + 1 + ((n : ℝ) - 1) + 1) / ((l : ℝ) + 3 / 2 + ((n : ℝ) - 1) + 1) / ((n : ℝ) + 1) * z = hypCoef l (n + 1) * z ^ (n + 1) := by
      rw [hypCoef, pow_succ, show (1 / 2 + ((n : ℝ) - 1) + 1) = n + 1 / 2 by ring, show ((l : ℝ) + 1 + ((n : ℝ) - 1) + 1) = l + 1 + n by ring,
        show ((l : ℝ) + 3 / 2 + ((n : ℝ) - 1) + 1) = l + 3 / 2 + n by ring]
      have h1 : ((l : ℝ) + 3 / 2 + n) ≠ 0 := by positivity
      have h2 : ((n : ℝ) + 1) ≠ 0 := by positivity
      field_simp
    rw [ht]
    have hs := hypPart_ge_one (l := l) hz (show 1 ≤ n + 1 by omega)
    have tp : 0 ≤ hypCoef l (n + 1) * z ^ (n + 1) := mul_nonneg (hypCoef_pos _ _).le (by positivity)
    by_cases h : |hypCoef l (n + 1) * z ^ (n + 1) / hypPart l z (n + 1)| ≤ 1e-7
    · rw [if_pos h]
      refine ⟨n + 1, le_rfl, rfl, Or.inl ?_⟩
      rw [abs_of_nonneg (div_nonneg tp (by linarith)), div_le_iff₀ (by linarith)] at h
      exact h
    · rw [if_neg h]
      obtain ⟨N, a, b, c⟩ := ih (n + 1) (by omega)
      refine ⟨N, by omega, ?_, ?_⟩
      · rw [← b]
        push_cast
        congr 1
        · ring
        · ring
        · ring
        · unfold hypPart
          rw [Finset.sum_range_succ _ (n + 1)]
      · rcases c with c | c
        · exact Or.inl c
        · exact Or.inr (by omega)

theorem hyp_summable (l : Nat) {z : ℝ} (hz : 0 ≤ z) (h1 : z < 1) : Summable fun k => hypCoef l k * z ^ k := by
  refine Summable.of_nonneg_of_le (fun k => mul_nonneg (hypCoef_pos _ _).le (by positivity)) (fun k => ?_) (summable_geometric_of_lt_one hz h1)
  have := mul_le_mul_of_nonneg_right (hypCoef_le_one l k) (show 0 ≤ z ^ k by positivity)
  linarith

theorem hypCoef_anti (l N k : Nat) : hypCoef l (k + N) ≤ hypCoef l N := by
  induction k with
  | zero => simp
  | succ k ih => rw [show k + 1 + N = k + N + 1 by ring]; exact (hypCoef_succ_le l _).trans ih

/-- `HYPRG99` sums the series up to a relative error. -/
theorem hyprg_err (l : Nat) {z : ℝ} (hz : 0 ≤ z) (h1 : z ≤ 1 / 4) :
    hyprg 0.5 (l + 1 : Nat) ((l + 1 : Nat) + 0.5) z 400 ≤ (∑' k, hypCoef l k * z ^ k) ∧ (∑' k, hypCoef l k * z ^ k) ≤ (1 + 1.34e-7) * hyprg 0.5 (l + 1 : Nat) ((l + 1 : Nat) + 0.5) z 400 := by
  obtain ⟨N, a, b, c⟩ := hypLoop_spec l hz 399 1 le_rfl
  have e : hyprg 0.5 (l + 1 : Nat) ((l + 1 : Nat) + 0.5) z 400 = hypPart l z N := by
    rw [← b]
    unfold hyprg
    have t1 : (0.5 : ℝ) * ((l + 1 : Nat) : ℝ) * z / (((l + 1 : Nat) : ℝ) + 0.5) = hypCoef l 1 * z ^ 1 := by
      rw [hypCoef, hypCoef]; push_cast
      rw [show ((l : ℝ) + 1 + 0.5) = l + 3 / 2 by norm_num; ring]
      have h1 : ((l : ℝ) + 3 / 2) ≠ 0 := by positivity
      norm_num
      field_simp
    rw [t1]
    push_cast
    congr 1
    · norm_num
    · ring
    · norm_num; ring
    · unfold hypPart; rw [Finset.sum_range_succ, Finset.sum_range_one]; simp [hypCoef]; ring
  rw [e]
  have hs := hyp_summable l hz (by linarith)
  have tailnn : 0 ≤ ∑' k, hypCoef l (k + N) * z ^ (k + N) := tsum_nonneg fun k => mul_nonneg (hypCoef_pos _ _).le (by positivity)
  have split : hypPart l z N + ∑' k, hypCoef l (k + N) * z ^ (k + N) = ∑' k, hypCoef l k * z ^ k := hs.sum_add_tsum_nat_add N
  have tail : ∑' k, hypCoef l (k + N) * z ^ (k + N) ≤ hypCoef l N * z ^ N * (4 / 3) := by
    have hg : HasSum (fun k => hypCoef l N * z ^ N * z ^ k) (hypCoef l N * z ^ N * (1 - z)⁻¹) := (hasSum_geometric_of_lt_one hz (by linarith)).mul_left _
    have h := Summable.tsum_le_tsum (fun k => ?_) ((summable_nat_add_iff N).2 hs) hg.summable
    · rw [hg.tsum_eq] at h
      refine h.trans (mul_le_mul_of_nonneg_left ?_ (mul_nonneg (hypCoef_pos _ _).le (by positivity)))
      rw [inv_le_comm₀ (by linarith) (by norm_num)]
      norm_num; linarith
    · rw [pow_add, show hypCoef l N * z ^ N * z ^ k = hypCoef l N * (z ^ k * z ^ N) by ring]
      exact mul_le_mul_of_nonneg_right (hypCoef_anti l N k) (by positivity)
  have hp := hypPart_ge_one (l := l) hz (show 1 ≤ N by omega)
  have hN : hypCoef l N * z ^ N ≤ 1e-7 * hypPart l z N := by
    rcases c with c | c
    · exact c
    · have h2 : z ^ N ≤ (1 / 4) ^ 12 := (pow_le_pow_left₀ hz h1 N).trans (pow_le_pow_of_le_one (by norm_num) (by norm_num) (by omega))
      have h3 : hypCoef l N * z ^ N ≤ 1 * (1 / 4) ^ 12 := mul_le_mul (hypCoef_le_one _ _) h2 (by positivity) (by norm_num)
      norm_num at h3 ⊢
      linarith
  constructor
  · linarith
  · linarith

/-- `ζ`. -/
theorem zeta_facts {x : ℝ} (hx : 1 < x) : 0 < 1 / (x + Real.sqrt (x * x - 1)) ∧ 1 / (x + Real.sqrt (x * x - 1)) ≤ 1 / x ∧
    x = (1 / (x + Real.sqrt (x * x - 1)) + 1 / (1 / (x + Real.sqrt (x * x - 1)))) / 2 := by
  have h0 := Real.sqrt_nonneg (x * x - 1)
  have hs := Real.sq_sqrt (show 0 ≤ x * x - 1 by nlinarith)
  set r := Real.sqrt (x * x - 1)
  have hp : 0 < x + r := by linarith
  refine ⟨by positivity, one_div_le_one_div_of_le (by linarith) (by linarith), ?_⟩
  field_simp
  nlinarith

theorem qjHyp_err {x : ℝ} (hx : 2 ≤ x) (l : Nat) : 0 < qjHyp l x ∧ qjHyp l x ≤ legQ l x ∧ legQ l x ≤ (1 + 1.34e-7) * qjHyp l x := by
  obtain ⟨z0, z1, z2⟩ := zeta_facts (show 1 < x by linarith)
  unfold qjHyp
  dsimp only
  set ζ := 1 / (x + Real.sqrt (x * x - 1)) with hζ
  have z3 : ζ ≤ 1 / 2 := z1.trans (one_div_le_one_div_of_le (by norm_num) hx)
  rw [legQ_series (by linarith) z0 (by linarith) z2 l]
  have e : qSer ζ l = hypPre l * (2 * ζ) ^ (l + 1) * ∑' k, hypCoef l k * (ζ * ζ) ^ k := by
    unfold qSer
    rw [← tsum_mul_left]
    refine tsum_congr fun k => ?_
    unfold qCoef
    rw [pow_add ζ, pow_mul ζ, mul_pow, ← pow_two]; ring
  rw [e]
  obtain ⟨h1, h2⟩ := hyprg_err l (z := ζ * ζ) (by positivity) (by nlinarith)
  have hp := hypPre_pos l
  change 0 < hypPre l * (2 * ζ) ^ (l + 1) * _ ∧ hypPre l * (2 * ζ) ^ (l + 1) * _ ≤ _ ∧ _ ≤ _ * (hypPre l * (2 * ζ) ^ (l + 1) * _)
  have hc : 0 < hypPre l * (2 * ζ) ^ (l + 1) := by positivity
  have pos : 0 < hyprg 0.5 (l + 1 : Nat) ((l + 1 : Nat) + 0.5) (ζ * ζ) 400 := by
    have h3 : 1 ≤ ∑' k, hypCoef l k * (ζ * ζ) ^ k := by
      have hs := hyp_summable l (z := ζ * ζ) (by positivity) (by nlinarith)
      have := hs.sum_le_tsum (Finset.range 1) (fun k _ => mul_nonneg (hypCoef_pos _ _).le (by positivity))
      simpa [hypCoef] using this
    by_contra hh
    have := mul_nonpos_of_nonneg_of_nonpos (show (0 : ℝ) ≤ 1 + 1.34e-7 by norm_num) (not_lt.1 hh)
    linarith
  refine ⟨mul_pos hc pos, mul_le_mul_of_nonneg_left h1 hc.le, ?_⟩
  have := mul_le_mul_of_nonneg_left h2 hc.le
  linarith

/-- Partial sums of the series in `1/x`. -/
def invPart (s : Nat) (u : ℝ) (N : Nat) : ℝ := ∑ k ∈ Finset.range N, u ^ (2 * k + 1 + s) / (2 * k + 1 + 2 * s)

theorem qjSeries_run {x : ℝ} (hx : 1e4 < x) (fuel : Nat) : ∀ n : Nat, 5 ≤ n + fuel → n ≤ 4 →
    ∃ N, n + 1 ≤ N ∧ qjSeries x fuel (2 * n + 1) ((1 / x) ^ (2 * n + 1)) (invPart 0 (1 / x) (n + 1)) (invPart 1 (1 / x) (n + 1)) = some (invPart 0 (1 / x) N, invPart 1 (1 / x) N) := by
  have x0 : 0 < x := by norm_num at hx; linarith
  induction fuel with
  | zero => intro n h1 h2; omega
  | succ fuel ih =>
    intro n h1 h2
    rw [qjSeries]
    have ef : (1 / x) ^ (2 * n + 1) * (1 / x / x) = (1 / x) ^ (2 * (n + 1) + 1) := by
      rw [show 2 * (n + 1) + 1 = 2 * n + 1 + 2 by ring, pow_add, div_div]; ring
    rw [ef, show (2 * (n : ℝ) + 1 + 2) = 2 * ((n + 1 : Nat) : ℝ) + 1 by push_cast; ring]
    have en0 : invPart 0 (1 / x) (n + 1) + (1 / x) ^ (2 * (n + 1) + 1) / (2 * ((n + 1 : Nat) : ℝ) + 1) = invPart 0 (1 / x) (n + 1 + 1) := by
      unfold invPart
      rw [Finset.sum_range_succ _ (n + 1)]
      push_cast
      congr 2
      ring
    have en1 : invPart 1 (1 / x) (n + 1) + (1 / x) ^ (2 * (n + 1) + 1) / x / (2 * ((n + 1 : Nat) : ℝ) + 1 + 2) = invPart 1 (1 / x) (n + 1 + 1) := by
      unfold invPart
      rw [Finset.sum_range_succ _ (n + 1)]
      push_cast
      rw [show (1 / x) ^ (2 * (n + 1) + 1 + 1) = (1 / x) ^ (2 * (n + 1) + 1) / x by rw [pow_succ _ (2 * (n + 1) + 1)]; ring]
      congr 2
      ring
    by_cases h : |(1 / x) ^ (2 * (n + 1) + 1) / (2 * ((n + 1 : Nat) : ℝ) + 1)| < 1e-40
    · rw [if_pos h]; exact ⟨n + 1, le_rfl, rfl⟩
    · rw [if_neg h, en0, en1]
      have hn : n + 1 ≤ 4 := by
        by_contra hh
        apply h
        have hn4 : n = 4 := by omega
        subst hn4
        rw [abs_of_pos (by positivity)]
        have hu : 1 / x ≤ 1e-4 := by rw [div_le_iff₀ x0]; norm_num at hx ⊢; linarith
        have hp : (1 / x) ^ (2 * (4 + 1) + 1) ≤ (1e-4 : ℝ) ^ (2 * (4 + 1) + 1) := pow_le_pow_left₀ (by positivity) hu _
        have : (1 / x) ^ (2 * (4 + 1) + 1) / (2 * ((4 + 1 : Nat) : ℝ) + 1) ≤ (1 / x) ^ (2 * (4 + 1) + 1) := div_le_self (by positivity) (by norm_num)
        refine lt_of_le_of_lt (this.trans hp) (by norm_num)
      obtain ⟨N, a, b⟩ := ih (n + 1) (by omega) hn
      exact ⟨N, by omega, b⟩

theorem inv_series {x : ℝ} (hx : 1 < x) : HasSum (fun k : Nat => (1 / x) ^ (2 * k + 1 + 0) / (2 * (k : ℝ) + 1 + 2 * (0 : Nat))) (legQ 0 x) ∧
    HasSum (fun k : Nat => (1 / x) ^ (2 * k + 1 + 1) / (2 * (k : ℝ) + 1 + 2 * (1 : Nat))) (legQ 1 x) := by
  have x0 : 0 < x := by linarith
  have h := Real.hasSum_log_sub_log_of_abs_lt_one (x := 1 / x) (by rw [abs_of_pos (by positivity), div_lt_one x0]; exact hx)
  have e0 : HasSum (fun k : Nat => (1 / x) ^ (2 * k + 1) / (2 * (k : ℝ) + 1)) (legQ 0 x) := by
    have h2 := h.mul_left (1 / 2)
    have e : 1 / 2 * (Real.log (1 + 1 / x) - Real.log (1 - 1 / x)) = legQ 0 x := by
      have hlt : 1 / x < 1 := by rw [div_lt_one x0]; exact hx
      rw [legQ_zero hx, ← Real.log_div (by positivity) (by linarith)]
      rw [show (1 + 1 / x) / (1 - 1 / x) = (x + 1) / (x - 1) by field_simp]
      try ring
    rw [e] at h2
    exact (show (fun k : Nat => 1 / 2 * (2 * (1 / (2 * (k : ℝ) + 1)) * (1 / x) ^ (2 * k + 1))) = (fun k : Nat => (1 / x) ^ (2 * k + 1) / (2 * (k : ℝ) + 1)) from funext fun k => by ring) ▸ h2
  refine ⟨by simpa using e0, ?_⟩
  have e1 := (hasSum_nat_add_iff' 1).2 (e0.mul_left x)
  rw [Finset.sum_range_one, show x * legQ 0 x - x * ((1 / x) ^ (2 * 0 + 1) / (2 * ((0 : Nat) : ℝ) + 1)) = legQ 1 x by
    rw [legQ_one hx]; norm_num; field_simp] at e1
  refine (funext fun k => ?_ : (fun k : Nat => x * ((1 / x) ^ (2 * (k + 1) + 1) / (2 * ((k + 1 : Nat) : ℝ) + 1))) = (fun k : Nat => (1 / x) ^ (2 * k + 1 + 1) / (2 * (k : ℝ) + 1 + 2 * (1 : Nat)))) ▸ e1
  rw [show 2 * (k + 1) + 1 = 2 * k + 1 + 1 + 1 by ring, pow_succ _ (2 * k + 1 + 1)]
  push_cast
  rw [show (2 * ((k : ℝ) + 1) + 1) = 2 * (k : ℝ) + 1 + 2 * 1 by ring]
  field_simp

/-- A partial sum with at least one term, for large `x`. -/
theorem invPart_err {x : ℝ} (hx : 1e4 < x) (s : Nat) {Q : ℝ} (hQ : HasSum (fun k : Nat => (1 / x) ^ (2 * k + 1 + s) / (2 * (k : ℝ) + 1 + 2 * (s : Nat))) Q) {N : Nat} (hN : 1 ≤ N) :
    0 < invPart s (1 / x) N ∧ invPart s (1 / x) N ≤ Q ∧ Q ≤ (1 + 1.34e-7) * invPart s (1 / x) N := by
  have x0 : 0 < x := by norm_num at hx; linarith
  set u := 1 / x with hu
  have u0 : 0 < u := by positivity
  have u1 : u ≤ 1e-4 := by rw [hu, div_le_iff₀ x0]; norm_num at hx ⊢; linarith
  have hn : ∀ k : Nat, 0 ≤ u ^ (2 * k + 1 + s) / (2 * (k : ℝ) + 1 + 2 * (s : Nat)) := fun k => by positivity
  have first : u ^ (1 + s) / (1 + 2 * (s : ℝ)) ≤ invPart s u N := by
    have := Finset.single_le_sum (f := fun k : Nat => u ^ (2 * k + 1 + s) / (2 * (k : ℝ) + 1 + 2 * (s : Nat))) (fun k _ => hn k) (Finset.mem_range.2 (show 0 < N by omega))
    simpa [invPart] using this
  have fpos : 0 < u ^ (1 + s) / (1 + 2 * (s : ℝ)) := by positivity
  have le : invPart s u N ≤ Q := sum_le_hasSum _ (fun k _ => hn k) hQ
  refine ⟨by linarith, le, ?_⟩
  have hg : HasSum (fun k : Nat => u ^ (1 + s) / (1 + 2 * (s : ℝ)) * (u ^ 2) ^ k) (u ^ (1 + s) / (1 + 2 * (s : ℝ)) * (1 - u ^ 2)⁻¹) := by
    refine (hasSum_geometric_of_lt_one (by positivity) ?_).mul_left _
    norm_num at u1
    nlinarith
  have hle : Q ≤ u ^ (1 + s) / (1 + 2 * (s : ℝ)) * (1 - u ^ 2)⁻¹ := by
    refine hasSum_le (fun k => ?_) hQ hg
    rw [show 2 * k + 1 + s = 1 + s + 2 * k by ring, pow_add, pow_mul, div_mul_eq_mul_div]
    refine div_le_div_of_nonneg_left (by positivity) (by positivity) ?_
    linarith [show (0 : ℝ) ≤ k by positivity]
  have u2 : u ^ 2 ≤ 1e-8 := by norm_num at u1 ⊢; nlinarith
  have hinv : (1 - u ^ 2)⁻¹ ≤ 1 + 1.34e-7 := by
    rw [inv_le_comm₀ (by norm_num at u2; linarith) (by norm_num)]
    norm_num at u2 ⊢
    linarith
  have := mul_le_mul_of_nonneg_left hinv fpos.le
  have h3 := mul_le_mul_of_nonneg_left first (show (0 : ℝ) ≤ 1 + 1.34e-7 by norm_num)
  linarith

/-- `QJ99` for every wave and every argument from 2 on. -/
theorem qj99_err {x : ℝ} (hx : 2 ≤ x) (l : Nat) {fuel : Nat} (hf : 5 ≤ fuel) : ∃ q, qj99 fuel l x = some q ∧ 0 < q ∧ q ≤ legQ l x ∧ legQ l x ≤ (1 + 1.34e-7) * q := by
  have hx1 : 1 < x := by linarith
  obtain ⟨z0, z1, z2⟩ := zeta_facts hx1
  have pos : ∀ l, 0 < legQ l x := fun l => lt_of_lt_of_le (qjHyp_err hx l).1 (qjHyp_err hx l).2.1
  have self : ∀ l, legQ l x ≤ (1 + 1.34e-7) * legQ l x := fun l => by have := pos l; linarith
  unfold qj99
  by_cases a : x < 1e4 ∧ l = 0
  · rw [if_pos a, a.2, ← legQ_zero hx1]
    exact ⟨_, rfl, pos 0, le_rfl, self 0⟩
  rw [if_neg a]
  by_cases b : x < 1e4 ∧ l = 1
  · rw [if_pos b, b.2, ← legQ_zero hx1, ← legQ_one hx1]
    exact ⟨_, rfl, pos 1, le_rfl, self 1⟩
  rw [if_neg b]
  by_cases c : 1e4 < x
  · rw [if_pos c]
    obtain ⟨N, n1, n2⟩ := qjSeries_run c fuel 0 (by omega) (by omega)
    have e : qjSeries x fuel 1 (1 / x) (1 / x / 1) (1 / x / x / (1 + 2)) = some (invPart 0 (1 / x) N, invPart 1 (1 / x) N) := by
      rw [← n2]
      congr 1
      · norm_num
      · norm_num
      · simp [invPart]
      · simp [invPart]
        field_simp
        try norm_num
    rw [e]
    dsimp only [Option.map]
    obtain ⟨s0, s1⟩ := inv_series hx1
    by_cases l0 : l = 0
    · rw [if_pos l0, l0]
      exact ⟨_, rfl, invPart_err c 0 s0 (by omega)⟩
    rw [if_neg l0]
    by_cases l1 : l = 1
    · rw [if_pos l1, l1]
      exact ⟨_, rfl, invPart_err c 1 s1 (by omega)⟩
    rw [if_neg l1]
    exact ⟨_, rfl, qjHyp_err hx l⟩
  · rw [if_neg c]
    exact ⟨_, rfl, qjHyp_err hx l⟩

end TicTac
end
