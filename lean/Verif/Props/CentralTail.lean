import Verif.Props.CentralTwoLoop
import Verif.Lemmas.TailBounds
/-! C102: accuracy of the expansion near `z = 1` in the two-loop isoscalar central potential. -/
noncomputable section
namespace TicTac
open Spec MeasureTheory Set

theorem mom_bounds (n : Nat) (h : n < 13) : (momLo.getD n 0 : ℝ) ≤ ∫ z in (0.95 : ℝ)..1, momH n z ∧ ∫ z in (0.95 : ℝ)..1, momH n z ≤ (momHi.getD n 0 : ℝ) := by
  obtain ⟨h0, h1, h2⟩ := mom_table ⟨n, h⟩
  dsimp only at h0 h1 h2
  rw [mom_eq]
  generalize momLo.getD n 0 = a at *
  generalize momHi.getD n 0 = b at *
  generalize momA n = A at *
  generalize momB n = B at *
  obtain ⟨l1, l2⟩ := log39_bounds
  have h0' : (0 : ℝ) ≤ A := by exact_mod_cast h0
  have h1' := (Rat.cast_le (K := ℝ)).2 h1
  have h2' := (Rat.cast_le (K := ℝ)).2 h2
  push_cast at h1' h2'
  norm_num at l1 l2
  constructor <;> nlinarith

theorem momH_nonneg (n : Nat) (z : ℝ) (h0 : 0.95 ≤ z) (h1 : z < 1) : 0 ≤ momH n z := by
  norm_num at h0
  unfold momH
  have h2 : 0 ≤ Real.log (1 + z) - Real.log (1 - z) := sub_nonneg.2 (Real.log_le_log (by linarith) (by linarith))
  have h3 : 0 ≤ 8 - z ^ 2 := by nlinarith
  have h4 : 0 ≤ 1 - z ^ 2 := by nlinarith
  positivity

theorem momH_pow (n : Nat) (z : ℝ) : momH n z = momH 0 z * (1 - z ^ 2) ^ n := by unfold momH; ring

theorem geom_bounds (u : ℝ) (_h0 : 0 ≤ u) (h1 : u ≤ 39 / 400) :
    ∑ n ∈ Finset.range 12, u ^ n ≤ 1 / (1 - u) ∧ 1 / (1 - u) ≤ ∑ n ∈ Finset.range 12, u ^ n + 10 / 9 * u ^ 12 := by
  have hd : 0 < 1 - u := by linarith
  have e : (∑ n ∈ Finset.range 12, u ^ n) * (1 - u) = 1 - u ^ 12 := by
    have := geom_sum_mul u 12; linarith
  have hp : 0 ≤ u ^ 12 := by positivity
  constructor
  · rw [le_div_iff₀ hd, e]; linarith
  · rw [div_le_iff₀ hd, add_mul, e]; nlinarith

/-- The integral from 0.95 to 1 times `4m² + q²`, between two polynomials in `y = q²/(4m² + q²)`. -/
theorem tail_integral (m q2 : ℝ) (hm : 0 < m) (hq2 : 0 < q2) :
    tailLo (q2 / (4 * m ^ 2 + q2)) ≤ (4 * m ^ 2 + q2) * ∫ z in (0.95 : ℝ)..1, centralLog m q2 z ∧
    (4 * m ^ 2 + q2) * (∫ z in (0.95 : ℝ)..1, centralLog m q2 z) ≤ tailHi (q2 / (4 * m ^ 2 + q2)) := by
  have hD : 0 < 4 * m ^ 2 + q2 := by positivity
  set y := q2 / (4 * m ^ 2 + q2) with hy
  have hy0 : 0 ≤ y := by positivity
  have hy1 : y < 1 := by rw [hy, div_lt_one hD]; nlinarith [sq_nonneg m, hm]
  have hpt : ∀ z ∈ Ioo (0.95 : ℝ) 1, (4 * m ^ 2 + q2) * centralLog m q2 z = momH 0 z * (1 / (1 - (1 - z ^ 2) * y)) := by
    rintro z ⟨h0, h1⟩
    norm_num at h0
    unfold centralLog momH
    rw [Real.log_div (by linarith) (by linarith)]
    have hden : 4 * m ^ 2 + z ^ 2 * q2 ≠ 0 := by positivity
    have e : 1 - (1 - z ^ 2) * y = (4 * m ^ 2 + z ^ 2 * q2) / (4 * m ^ 2 + q2) := by rw [hy]; field_simp; ring
    rw [e]
    field_simp
  have hii : IntervalIntegrable (fun z => (4 * m ^ 2 + q2) * centralLog m q2 z) volume 0.95 1 :=
    (centralLog_integrable m q2 0.95 1 hm hq2 (by norm_num) le_rfl (by norm_num)).const_mul _
  have hlo : IntervalIntegrable (fun z => ∑ n ∈ Finset.range 12, y ^ n * momH n z) volume 0.95 1 := by
    have := IntervalIntegrable.sum (Finset.range 12) (f := fun n z => y ^ n * momH n z) fun n _ => (momH_integrable n).const_mul (y ^ n)
    have e : (fun z => ∑ n ∈ Finset.range 12, y ^ n * momH n z) = ∑ n ∈ Finset.range 12, fun z => y ^ n * momH n z := by
      funext z; rw [Finset.sum_apply]
    rw [e]; exact this
  have hlast : IntervalIntegrable (fun z => 10 / 9 * (y ^ 12 * momH 12 z)) volume 0.95 1 := ((momH_integrable 12).const_mul _).const_mul _
  have hsum : ∫ z in (0.95 : ℝ)..1, (∑ n ∈ Finset.range 12, y ^ n * momH n z) = ∑ n ∈ Finset.range 12, y ^ n * ∫ z in (0.95 : ℝ)..1, momH n z := by
    rw [intervalIntegral.integral_finsetSum fun n _ => (momH_integrable n).const_mul _]
    simp only [intervalIntegral.integral_const_mul]
  have hser : ∀ z, ∑ n ∈ Finset.range 12, y ^ n * momH n z = momH 0 z * ∑ n ∈ Finset.range 12, ((1 - z ^ 2) * y) ^ n := fun z => by
    rw [Finset.mul_sum]
    refine Finset.sum_congr rfl fun n _ => ?_
    rw [momH_pow n, mul_pow]; ring
  have hu : ∀ z ∈ Ioo (0.95 : ℝ) 1, 0 ≤ (1 - z ^ 2) * y ∧ (1 - z ^ 2) * y ≤ 39 / 400 := by
    rintro z ⟨h0, h1⟩
    norm_num at h0
    have h4 : 0 ≤ 1 - z ^ 2 := by nlinarith
    have h5 : 1 - z ^ 2 ≤ 39 / 400 := by nlinarith
    exact ⟨by positivity, by nlinarith⟩
  have hP : ∀ n, 0 ≤ y ^ n := fun n => by positivity
  rw [← intervalIntegral.integral_const_mul]
  constructor
  · refine le_trans ?_ (intervalIntegral.integral_mono_on_of_le_Ioo (by norm_num) hlo hii fun z hz => ?_)
    · rw [hsum]
      have hb := fun n (h : n < 13) => mul_le_mul_of_nonneg_left (mom_bounds n h).1 (hP n)
      simp only [Finset.sum_range_succ, Finset.sum_range_zero]
      have b0 := hb 0 (by norm_num); have b1 := hb 1 (by norm_num); have b2 := hb 2 (by norm_num); have b3 := hb 3 (by norm_num)
      have b4 := hb 4 (by norm_num); have b5 := hb 5 (by norm_num); have b6 := hb 6 (by norm_num); have b7 := hb 7 (by norm_num)
      have b8 := hb 8 (by norm_num); have b9 := hb 9 (by norm_num); have b10 := hb 10 (by norm_num); have b11 := hb 11 (by norm_num)
      simp [momLo] at b0 b1 b2 b3 b4 b5 b6 b7 b8 b9 b10 b11
      unfold tailLo
      linarith
    · rw [hpt z hz, hser]
      exact mul_le_mul_of_nonneg_left (geom_bounds _ (hu z hz).1 (hu z hz).2).1 (momH_nonneg 0 z hz.1.le hz.2)
  · refine le_trans (intervalIntegral.integral_mono_on_of_le_Ioo (by norm_num) hii (hlo.add hlast) fun z hz => ?_) ?_
    · rw [hpt z hz, hser, momH_pow 12]
      have := mul_le_mul_of_nonneg_left (geom_bounds _ (hu z hz).1 (hu z hz).2).2 (momH_nonneg 0 z hz.1.le hz.2)
      refine this.trans (le_of_eq ?_)
      ring
    · rw [intervalIntegral.integral_add hlo hlast, hsum, intervalIntegral.integral_const_mul, intervalIntegral.integral_const_mul]
      have hb := fun n (h : n < 13) => mul_le_mul_of_nonneg_left (mom_bounds n h).2 (hP n)
      simp only [Finset.sum_range_succ, Finset.sum_range_zero]
      have b0 := hb 0 (by norm_num); have b1 := hb 1 (by norm_num); have b2 := hb 2 (by norm_num); have b3 := hb 3 (by norm_num)
      have b4 := hb 4 (by norm_num); have b5 := hb 5 (by norm_num); have b6 := hb 6 (by norm_num); have b7 := hb 7 (by norm_num)
      have b8 := hb 8 (by norm_num); have b9 := hb 9 (by norm_num); have b10 := hb 10 (by norm_num); have b11 := hb 11 (by norm_num)
      have b12 := hb 12 (by norm_num)
      simp [momHi] at b0 b1 b2 b3 b4 b5 b6 b7 b8 b9 b10 b11 b12
      unfold tailHi
      linarith

theorem tail_poly (p : PionData) (q2 : ℝ) (hm : 0 < p.mpi 2) (hq2 : 0 < q2) :
    (4 * p.mpi 2 ^ 2 + q2) * vcTail p q2 = tailPoly (q2 / (4 * p.mpi 2 ^ 2 + q2)) := by
  unfold vcTail vcTailCoeff tailPoly
  simp only [List.foldr]
  generalize p.mpi 2 = m at *
  have hD : 4 * m ^ 2 + q2 ≠ 0 := by positivity
  have hx : 4 + q2 * (1 / m) ^ 2 = (4 * m ^ 2 + q2) / m ^ 2 := by field_simp
  have h1 : (1 - q2 / (4 * m ^ 2 + q2)) / 4 = m ^ 2 / (4 * m ^ 2 + q2) := by field_simp; ring
  rw [hx, h1]
  generalize 4 * m ^ 2 + q2 = D at *
  field_simp
  ring

theorem tailLo_pos (y : ℝ) (h : 0 ≤ y) : 0 < tailLo y := by unfold tailLo; positivity

/-- **C102.** The seven-term expansion the program uses for the part of the integral from `z = 0.95` to 1 is within `3.4·10⁻¹⁰` of it (relative error) for every
momentum transfer, within the documented `2.6·10⁻¹⁰` up to `q² = 396 m²`, but not for all transfers as documented: above `q² = 796 m²` the error exceeds
`2.7·10⁻¹⁰`. -/
theorem C102_tail (p : PionData) (q2 : ℝ) (hm : 0 < p.mpi 2) (hq2 : 0 < q2) :
    0 < (∫ z in (0.95 : ℝ)..1, centralLog (p.mpi 2) q2 z) ∧
    |vcTail p q2 - ∫ z in (0.95 : ℝ)..1, centralLog (p.mpi 2) q2 z| ≤ 3.4e-10 * (∫ z in (0.95 : ℝ)..1, centralLog (p.mpi 2) q2 z) ∧
    (q2 ≤ 396 * p.mpi 2 ^ 2 →
      |vcTail p q2 - ∫ z in (0.95 : ℝ)..1, centralLog (p.mpi 2) q2 z| ≤ 2.6e-10 * (∫ z in (0.95 : ℝ)..1, centralLog (p.mpi 2) q2 z)) ∧
    (796 * p.mpi 2 ^ 2 ≤ q2 →
      |vcTail p q2 - ∫ z in (0.95 : ℝ)..1, centralLog (p.mpi 2) q2 z| ≥ 2.7e-10 * (∫ z in (0.95 : ℝ)..1, centralLog (p.mpi 2) q2 z)) := by
  obtain ⟨h1, h2⟩ := tail_integral (p.mpi 2) q2 hm hq2
  have h3 := tail_poly p q2 hm hq2
  have hD : 0 < 4 * p.mpi 2 ^ 2 + q2 := by positivity
  have hy0 : 0 ≤ q2 / (4 * p.mpi 2 ^ 2 + q2) := by positivity
  have hy1 : q2 / (4 * p.mpi 2 ^ 2 + q2) ≤ 1 := by rw [div_le_one hD]; nlinarith [sq_nonneg (p.mpi 2)]
  have hsmall : q2 ≤ 396 * p.mpi 2 ^ 2 → q2 / (4 * p.mpi 2 ^ 2 + q2) ≤ 99 / 100 := fun h => by rw [div_le_iff₀ hD]; linarith
  have hlarge : 796 * p.mpi 2 ^ 2 ≤ q2 → 199 / 200 ≤ q2 / (4 * p.mpi 2 ^ 2 + q2) := fun h => by rw [le_div_iff₀ hD]; linarith
  have hlo := tailLo_pos _ hy0
  generalize q2 / (4 * p.mpi 2 ^ 2 + q2) = y at *
  generalize (∫ z in (0.95 : ℝ)..1, centralLog (p.mpi 2) q2 z) = I at *
  generalize vcTail p q2 = V at *
  generalize 4 * p.mpi 2 ^ 2 + q2 = D at *
  have hI : 0 < I := pos_of_mul_pos_right (lt_of_lt_of_le hlo h1) hD.le
  have key : ∀ κ : ℝ, 0 ≤ κ → κ ≤ 1 → tailPoly y ≤ (1 + κ) * tailLo y → (1 - κ) * tailHi y ≤ tailPoly y → |V - I| ≤ κ * I := by
    intro κ k0 k1 ku kd
    rw [← h3] at ku kd
    have a1 : D * V ≤ (1 + κ) * (D * I) := ku.trans (mul_le_mul_of_nonneg_left h1 (by linarith))
    have a2 : (1 - κ) * (D * I) ≤ D * V := (mul_le_mul_of_nonneg_left h2 (by linarith)).trans kd
    have a3 : V ≤ (1 + κ) * I := le_of_mul_le_mul_left (by linarith [a1]) hD
    have a4 : (1 - κ) * I ≤ V := le_of_mul_le_mul_left (by linarith [a2]) hD
    rw [abs_le]
    constructor <;> linarith
  refine ⟨hI, ?_, fun h => ?_, fun h => ?_⟩
  · exact key _ (by norm_num) (by norm_num) (by have := tail_up_all y hy0 hy1; norm_num at this ⊢; exact this)
      (by have := tail_dn_all y hy0 hy1; norm_num at this ⊢; exact this)
  · exact key _ (by norm_num) (by norm_num) (by have := tail_up y hy0 (hsmall h); norm_num at this ⊢; exact this)
      (by have := tail_dn y hy0 (hsmall h); norm_num at this ⊢; exact this)
  · have := tail_large y (hlarge h) hy1
    rw [← h3] at this
    have a1 : D * V ≤ (1 - 27 / 100000000000) * (D * I) := this.trans (mul_le_mul_of_nonneg_left h1 (by norm_num))
    have a2 : V ≤ (1 - 27 / 100000000000) * I := le_of_mul_le_mul_left (by linarith [a1]) hD
    rw [ge_iff_le, abs_of_nonpos (by linarith)]
    norm_num at a2 ⊢
    linarith

end TicTac
end
